import Verif.FontData.Lemmas
/-! **C58.**  The tables of a font in memory are those its directory describes, and lie inside of its bytes. -/
namespace Blend2D.FontData
open Blend2D.FontTag (tableTags)

/-- **C58, creation.**  Exactly the bytes with a complete header of a font or of a collection of at most 256 fonts
are accepted, with the number of faces the header says; nothing is read outside of the bytes. -/
theorem C58_create (d : List UInt8) :
    (Spec.Accepted d → ∃ D, create d = some (.ok D) ∧ D.bytes = d ∧ D.faces = Spec.faces d) ∧
    (¬Spec.Accepted d → ∃ e, create d = some (.error e)) :=
  ⟨fun h => ⟨_, (create_spec d).1 h, rfl, rfl⟩, (create_spec d).2⟩

/-- **C58, the list of tables.**  The tags of a face are those of the records of its directory, in this order; a face
that does not exist, or whose directory is not in the bytes, is an error. -/
theorem C58_tags {d : List UInt8} {D : Data} (h : create d = some (.ok D)) (i : Nat) :
    listTags D i = some (
      if i < Spec.faces d then
        match Spec.records d i with
        | some rs => .ok (rs.map (·.tag))
        | none => .error .invalidData
      else .error .invalidValue) := by
  have hm := made h
  have hfc : D.faces = Spec.faces d := by rw [hm.eq]
  have hby : D.bytes = d := by rw [hm.eq]
  unfold listTags
  by_cases hi : i < Spec.faces d
  · obtain ⟨h1, h2⟩ := directory_spec hm hi
    rw [if_neg (by omega), if_pos hi, h1]
    cases hr : Spec.records d i with
    | none => rfl
    | some rs =>
      obtain ⟨h3, h4⟩ := h2 rs hr
      have h5 := readTags_spec (d := d) (h := Spec.header d i) rs.length 0 (by omega)
      simp only [Option.map_some, Option.bind_eq_bind, Option.bind_some, hby]
      rw [h5, ← List.range_eq_range', ← h4, Option.map_some]
  · rw [if_pos (by omega), if_neg hi]

theorem index_spec {ts : List UInt32} (hn : ts.length < 255) :
    (∃ t ∈ ts, t ∉ tableTags) ∧ build ts 0 (List.replicate 80 255) = some none ∨
    (∀ t ∈ ts, t ∈ tableTags) ∧ ∃ idx, build ts 0 (List.replicate 80 255) = some (some idx) ∧
      ∀ k, k < 80 → (∃ j t, ts[j]? = some t ∧ tableTags[k]? = some t ∧ idx[k]? = some j) ∨
        ((∀ t ∈ ts, tableTags[k]? ≠ some t) ∧ idx[k]? = some 255) := by
  rcases build_spec ts 0 (List.replicate 80 255) List.length_replicate (by omega) with h | ⟨h1, idx, h2, -, h3⟩
  · exact .inl h
  · refine .inr ⟨h1, idx, h2, fun k hk => ?_⟩
    rcases h3 k hk with ⟨j, t, e1, e2, e3⟩ | ⟨e1, e2⟩
    · exact .inl ⟨j, t, e1, e2, by rw [e3, Nat.zero_add]⟩
    · exact .inr ⟨e1, by rw [e2, List.getElem?_replicate_of_lt hk]⟩

theorem none_inside (d : List UInt8) (n : Nat) : Inside d (List.replicate n none, 0) := by
  intro e he o s hes
  rw [List.eq_of_mem_replicate he] at hes
  cases hes

/-- **C58, safety.**  Whatever the bytes, the face and the tags: looking up tables reads only the bytes and arrays and
writes only the tables that were passed, and every table it gives out is not empty and lies inside of the bytes. -/
theorem C58_safe {d : List UInt8} {D : Data} (h : create d = some (.ok D)) (i : Nat) (tags : List UInt32) :
    ∃ l m, getTables D i tags = some (l, m) ∧ l.length = tags.length ∧
      ∀ o s, some (o, s) ∈ l → 0 < s ∧ o + s ≤ d.length := by
  suffices hx : ∃ f, getTables D i tags = some f ∧ f.1.length = tags.length ∧ Inside d f by
    obtain ⟨f, h1, h2, h3⟩ := hx
    exact ⟨f.1, f.2, h1, h2, fun o s hm => h3 _ hm o s rfl⟩
  have hm := made h
  have hfc : D.faces = Spec.faces d := by rw [hm.eq]
  have hby : D.bytes = d := by rw [hm.eq]
  unfold getTables
  by_cases hi : i < Spec.faces d
  · obtain ⟨h1, h2⟩ := directory_spec hm hi
    rw [if_pos (by omega), h1]
    cases hr : Spec.records d i with
    | none => exact ⟨_, rfl, List.length_replicate, none_inside d _⟩
    | some rs =>
      obtain ⟨h3, h4⟩ := h2 rs hr
      simp only [Option.map_some, Option.bind_eq_bind, Option.bind_some, hby]
      by_cases hn : 3 ≤ tags.length ∧ tags.length < 255
      · rw [if_pos hn]
        rcases index_spec hn.2 with ⟨-, hb⟩ | ⟨hk, idx, hb, hs⟩
        · rw [hb]
          exact ⟨_, rfl, List.length_replicate, none_inside d _⟩
        · rw [hb]
          simp only [Option.bind_some]
          rw [scan_eq idx rs.length 0 _ (by omega)]
          exact scanList_safe d hn.2 hk hs _ _ List.length_replicate (none_inside d _)
      · rw [if_neg hn, linear_spec tags h3]
        refine ⟨_, rfl, List.length_map _, ?_⟩
        intro e he o s hes
        obtain ⟨t, -, rfl⟩ := List.mem_map.1 he
        unfold Spec.table at hes
        split at hes
        · split at hes
          · rename_i hv
            obtain ⟨rfl, rfl⟩ := Prod.mk.inj (Option.some.inj hes)
            exact ⟨Nat.pos_of_ne_zero hv.1, hv.2⟩
          · cases hes
        · cases hes
  · rw [if_neg (by omega)]
    exact ⟨_, rfl, List.length_replicate, none_inside d _⟩

theorem map_none (tags : List UInt32) : tags.map (fun _ => (none : Option (Nat × Nat))) = List.replicate tags.length none := by
  rw [List.map_const']

theorem found_none (n : Nat) : found (List.replicate n none) = 0 := by
  unfold found
  rw [List.filter_replicate_of_neg (by simp)]
  rfl

/-- **C58, tables.**  Every tag that is asked for gets the table its record in the directory of the face describes,
and nothing if there is no such record or it does not lie in the bytes; the result is the number of tables that were
found.  Partial: when three or more (and less than 255) tags are asked for at once, they have to be different tags of
tables that the library knows, and the tags of the directory have to be different, see
`C58_unknown_counterexample`, `C58_twice_counterexample` and `C58_count_counterexample`. -/
theorem C58_tables_partial {d : List UInt8} {D : Data} (h : create d = some (.ok D)) (i : Nat) (tags : List UInt32)
    (ht : tags.length < 3 ∨ 255 ≤ tags.length ∨
      (∀ t ∈ tags, t ∈ tableTags) ∧ tags.Nodup ∧ ∀ rs, Spec.records d i = some rs → (rs.map (·.tag)).Nodup) :
    getTables D i tags = some (tags.map (fun t => (Spec.records d i).bind (fun rs => Spec.table d rs t)),
      ((tags.map (fun t => (Spec.records d i).bind (fun rs => Spec.table d rs t))).filter Option.isSome).length) := by
  have hm := made h
  have hfc : D.faces = Spec.faces d := by rw [hm.eq]
  have hby : D.bytes = d := by rw [hm.eq]
  have hnone : (some (List.replicate tags.length none, 0) : Option Found) =
      some (tags.map (fun _ => none), ((tags.map (fun _ => (none : Option (Nat × Nat)))).filter Option.isSome).length) := by
    rw [map_none]
    exact congrArg some (Prod.ext rfl (found_none _).symm)
  unfold getTables
  by_cases hi : i < Spec.faces d
  · obtain ⟨h1, h2⟩ := directory_spec hm hi
    rw [if_pos (by omega), h1]
    cases hr : Spec.records d i with
    | none => exact hnone
    | some rs =>
      obtain ⟨h3, h4⟩ := h2 rs hr
      simp only [Option.map_some, Option.bind_eq_bind, Option.bind_some, hby]
      by_cases hn : 3 ≤ tags.length ∧ tags.length < 255
      · rw [if_pos hn]
        obtain ⟨hkn, hnd, hrn⟩ : (∀ t ∈ tags, t ∈ tableTags) ∧ tags.Nodup ∧
            ∀ rs, Spec.records d i = some rs → (rs.map (·.tag)).Nodup := by
          rcases ht with ht | ht | ht
          · omega
          · omega
          · exact ht
        rcases index_spec hn.2 with ⟨⟨t, htm, htn⟩, -⟩ | ⟨hk, idx, hb, hs⟩
        · exact absurd (hkn t htm) htn
        · rw [hb]
          simp only [Option.bind_some]
          have h5 := scanList_spec d hn.2 hk hs hnd rs [] (hrn rs hr)
          have h6 : tags.map (Spec.table d []) = List.replicate tags.length none := map_none tags
          rw [h6, found_none, List.nil_append] at h5
          rw [scan_eq idx rs.length 0 _ (by omega), ← List.range_eq_range', ← h4, h5]
          rfl
      · rw [if_neg hn, linear_spec tags h3, ← h4]
  · have hr : Spec.records d i = none := if_neg (fun hc => hi hc.1)
    rw [if_neg (by omega), hr]
    exact hnone

/-- **C58, one table.**  A single tag gets the table its record in the directory describes, whatever the font. -/
theorem C58_table {d : List UInt8} {D : Data} (h : create d = some (.ok D)) (i : Nat) (t : UInt32) :
    getTables D i [t] = some ([(Spec.records d i).bind (fun rs => Spec.table d rs t)],
      if ((Spec.records d i).bind (fun rs => Spec.table d rs t)).isSome then 1 else 0) := by
  rw [C58_tables_partial h i [t] (.inl (by simp))]
  simp only [List.map_cons, List.map_nil, List.filter_cons, List.filter_nil]
  split <;> rfl

end Blend2D.FontData
