import Verif.FontData.Props
/-! Font data: concrete fonts, and requests that do not get the tables of the font. -/
namespace Blend2D.FontData
open Blend2D.FontTag (tableTags)

/-- Four bytes of a number. -/
def be32 (n : Nat) : List UInt8 :=
  [UInt8.ofNat (n / 2 ^ 24), UInt8.ofNat (n / 2 ^ 16), UInt8.ofNat (n / 2 ^ 8), UInt8.ofNat n]

/-- `head`, `maxp`, `cmap`, `DSIG` and a tag of no known table. -/
abbrev head : UInt32 := 0x68656164
@[inherit_doc head] abbrev maxp : UInt32 := 0x6D617870
@[inherit_doc head] abbrev cmap : UInt32 := 0x636D6170
@[inherit_doc head] abbrev zzzz : UInt32 := 0x7A7A7A7A

/-- A header and records (tag, offset, length). -/
def font (l : List (UInt32 × Nat × Nat)) : List UInt8 :=
  be32 0x00010000 ++ [0, UInt8.ofNat l.length, 0, 0, 0, 0, 0, 0] ++
    l.flatMap (fun r => be32 r.1.toNat ++ be32 0 ++ be32 r.2.1 ++ be32 r.2.2)

/-- A font with three tables behind its directory, one of which is not in the bytes. -/
def threeTables : List UInt8 := font [(cmap, 60, 2), (head, 62, 3), (maxp, 64, 2)] ++ [1, 2, 3, 4, 5]

example : Spec.Accepted threeTables := by
  unfold Spec.Accepted
  decide +kernel
example : create threeTables = some (.ok ⟨threeTables, 1, 0⟩) := by decide +kernel
example : Spec.records threeTables 0 = some [⟨cmap, 60, 2⟩, ⟨head, 62, 3⟩, ⟨maxp, 64, 2⟩] := by decide +kernel
example : listTags ⟨threeTables, 1, 0⟩ 0 = some (.ok [cmap, head, maxp]) := by decide +kernel
example : (∀ t ∈ [head, maxp, cmap], t ∈ tableTags) ∧ [head, maxp, cmap].Nodup := by decide +kernel
example : getTables ⟨threeTables, 1, 0⟩ 0 [head, maxp, cmap] = some ([some (62, 3), none, some (60, 2)], 2) := by
  decide +kernel
example : getTables ⟨threeTables, 1, 0⟩ 0 [maxp, head] = some ([none, some (62, 3)], 1) := by decide +kernel
example : getTables ⟨threeTables, 1, 0⟩ 1 [cmap, head] = some ([none, none], 0) := by decide +kernel

/-- A collection of two fonts; the header of the second one is not in the bytes. -/
def twoFonts : List UInt8 := be32 0x74746366 ++ be32 0x00010000 ++ be32 2 ++ be32 20 ++ be32 1000 ++
  font [(head, 48, 1)] ++ [7]

example : create twoFonts = some (.ok ⟨twoFonts, 2, 12⟩) := by decide +kernel
example : getTables ⟨twoFonts, 2, 12⟩ 0 [head] = some ([some (48, 1)], 1) := by decide +kernel
example : listTags ⟨twoFonts, 2, 12⟩ 1 = some (.error .invalidData) := by decide +kernel
example : listTags ⟨twoFonts, 2, 12⟩ 2 = some (.error .invalidValue) := by decide +kernel
example : create (be32 0x74746366 ++ be32 0x00010000 ++ be32 2 ++ be32 20) = some (.error .invalidData) := by decide +kernel
example : create (be32 0x77777777 ++ be32 0x00010000 ++ be32 2) = some (.error .invalidSignature) := by decide +kernel

/-- **Counterexample.**  If one of three tags is not known to the library, none of the tables is found, although the
font has all of them and each of them is found if it is asked for alone. -/
theorem C58_unknown_counterexample :
    let d := font [(cmap, 60, 2), (head, 62, 3), (zzzz, 60, 5)] ++ [1, 2, 3, 4, 5]
    ∃ D, create d = some (.ok D) ∧ getTables D 0 [cmap, head, zzzz] = some ([none, none, none], 0) ∧
      getTables D 0 [cmap] = some ([some (60, 2)], 1) ∧ getTables D 0 [head] = some ([some (62, 3)], 1) ∧
      getTables D 0 [zzzz] = some ([some (60, 5)], 1) := by
  refine ⟨⟨font [(cmap, 60, 2), (head, 62, 3), (zzzz, 60, 5)] ++ [1, 2, 3, 4, 5], 1, 0⟩, ?_, ?_, ?_, ?_, ?_⟩ <;> decide +kernel

/-- **Counterexample.**  A tag that is asked for twice among three tags is found once only. -/
theorem C58_twice_counterexample :
    ∃ D, create threeTables = some (.ok D) ∧ getTables D 0 [head, cmap, head] = some ([none, some (60, 2), some (62, 3)], 2) ∧
      getTables D 0 [head, head] = some ([some (62, 3), some (62, 3)], 2) := by
  refine ⟨⟨threeTables, 1, 0⟩, ?_, ?_, ?_⟩ <;> decide +kernel

/-- **Counterexample.**  If the directory has several records of the same tag, the first one counts when two tables are
asked for and the last one when three are, and the number of tables that were found can be larger than the number of
tables that were asked for. -/
theorem C58_count_counterexample :
    let d := font [(head, 76, 1), (head, 77, 1), (head, 78, 1), (head, 79, 1)] ++ [1, 2, 3, 4]
    ∃ D, create d = some (.ok D) ∧ getTables D 0 [head, cmap, maxp] = some ([some (79, 1), none, none], 4) ∧
      getTables D 0 [head, cmap] = some ([some (76, 1), none], 1) := by
  refine ⟨⟨font [(head, 76, 1), (head, 77, 1), (head, 78, 1), (head, 79, 1)] ++ [1, 2, 3, 4], 1, 0⟩, ?_, ?_, ?_⟩ <;> decide +kernel

end Blend2D.FontData
