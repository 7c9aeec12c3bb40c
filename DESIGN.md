# Formal model of blend2d/blend2d in Lean 4

## Layout

* `properties.jsonl` - the properties, in English.
* `lean/Verif/<Area>/Model.lean` - functional model of the code; every definition cites the file and lines in `/repo`.
* `lean/Verif/<Area>/Spec.lean` - small specification that does not use the model's helpers.
* `lean/Verif/<Area>/Lemmas.lean` - proof machinery.
* `lean/Verif/<Area>/Props.lean` - the property theorems (`Cnn_...`), each with a non-vacuity `example`.
* `MANIFEST.json` - property -> theorem map.
* `seeded/LOG.jsonl` - mutation testing of the theorems.

## Method

* Fixed-width C++ integers are modelled by `UInt8/16/32/64`, `BitVec n` or by `Nat`/`Int` with explicit wrap-around.
* Pointers into a buffer are modelled as list suffixes or indexes; a read or write outside the buffer, a read of
  uninitialised storage, a shift by the full width, etc. is a distinct `ub` outcome, never assumed away.
* Stateful objects are modelled as `step : State -> Op -> State` and properties are proved over every `List Op`.
* Concurrent code is modelled as a transition relation over atomic steps; properties are proved for every
  reachable state of every interleaving and any number of threads.
* When the code contradicts the English property, the model keeps the code's behaviour; the negation is proved
  on a concrete witness (`..._counterexample`), the largest true part is proved as `..._partial`, and the
  disagreement is recorded in the section "Disagreements".

## Plan per property

| id | model | proof |
|----|-------|-------|
| C01 | QOI encoders (A8/XRGB32/PRGB32) and decoder on byte lists | simulation invariant: decoder state after a prefix = encoder state |
| C02 | same decoder, explicit out-of-bounds outcome | invariant on remaining bytes / written pixels |
| C03 | encoder output length | induction on pixels with amortised bound |
| C04 | chunked Adler-32 over UInt32 | bound on accumulators, then congruence mod 65521 |
| C05 | table driven CRC-32 | whole 256-entry table checked by kernel against bitwise step, lifted by linearity |
| C06 | PNG inverse filters | induction along the scanline; forward filter as spec |
| C07, C08 | UTF readers/writers on lists | case analysis per sequence length, induction |
| C09-C11 | pixel arithmetic over UInt32/UInt64 | arithmetic over Nat |
| C12 | simplification table, exact ring arithmetic | algebra per table entry |
| C13, C14 | quick/insertion sort and searches on lists with checked indexing | loop invariants |
| C15-C19 | containers as heap objects with ref-counts | refinement to list / bit list; simulation |
| C20, C21, C37 | gradient stops, feature/variation settings | invariants over operation histories |
| C22-C25, C17 | transition systems | inductive invariants |
| C26, C27, C30, C34 | support containers | invariants / refinement |
| C36 | bit sets: in place ranges, in place words, segments; single bit and range operations, queries | refinement to a predicate on numbers, loop invariants over segments, induction over histories |
| C28 | xorshift128+ | invertible linear map; induction |
| C29 | matrices over a commutative ring/field | algebra |
| C31 | saved-state stack with weak flags | simulation with a stack of full copies |
| C32 | extend contexts | invariant relating position to the mathematical index |
| C33, C38 | integer helpers | arithmetic |
| C35 | deflate decoder: decode tables (all three), lookups, the state machine of `decode` with every header, both tail loops, output growth and chunked input; a separate specification of inflate (RFC 1950/1951) | canonical codewords are laid out as disjoint intervals; invariant of the table loops: every placed codeword has its entries; capacity bound by counting (`enough`); simulation: every step of the decoder keeps what the specification says about the rest of the stream (`Sim`), and decreases a lexicographic measure (`Less`) |
| C39 | publication of a lazily computed object by compare-exchange | inductive invariant over a transition system |
| C40 | worker threads: `run`, `quit` and the entry point, both the futex and the condition variable versions | inductive invariants over interleavings of any number of calls; progress by running the worker |
| C41 | single bit, range, search and iterator primitives over words | bit extensionality, induction over words |
| C43 | tag dictionaries and tag sets | finite checks of the tables lifted to all tags; loop invariants |
| C44 | colour tables of gradients, 32-bit and 64-bit pixels | loop invariants over the written part of the table, error bound of the fixed point steps |
| C45 | 'cmap' sub-tables of formats 0, 4, 6, 10, 12 and 13: choice, validation, mapping of text, coverage | validation loops establish order and size, search and cache invariants, comparison with a specification after OpenType |
| C46 | paths: commands and vertices on the heap with reference counts, cached boxes | refinement to lists of commands and vertices, induction over histories; the box computation is compared with the points of lines and Bézier curves |
| C47 | the scanline fill loop of the reference pipeline: cells, marks, pixels and the position of the fetcher | the loop state is tied to the bit vector of marks (bits before the current one are consumed, the current word is inverted or not); induction over the spans |
| C48 | boxes and masks: the mask command program built for a box with sub-pixel edges, the loops that execute it, mask images, bands | a scanline function per group of commands (`Gives`, `Chain`), a decomposition of the program into groups with repetitions (`Fits`), exact arithmetic of the products of edge weights; bands by splitting the vertical coverage |
| C49 | edges: the four line algorithms of the analytic rasterizer (flat and steep, to the left and to the right), vertical lines, skipping scanlines, bands | the writes are a log; a state invariant between scanlines (position and error terms are the rounded crossings, `VI`, `HI`, `VV`), per-scanline theorems that the log adds up to the trapezoids of `Spec.cover`, induction over scanlines and over the calls |
| C50 | `fill_analytic`: active edges, new edges, band buffers, bits and cells, fill of each band | what an active edge owes (`Owes`) and that each band draws its part (`Does`); the buffers hold what the log of C49 says (`Holds`), which is what C47 needs (`fill_ready`, closed shapes have no coverage at the right); induction over bands |
| C51 | `fill_analytic`, `process_band`, `process_commands` of the worker threads: skipped bands, slots, pending bits, quantized coordinates; workers take turns in any order | as C50, with lines above a band skipped and lines that reach into it advanced (`advance_spec` of C49); invariant of a command in a worker (`StOk`) and of the image (`Progress`), induction over the turns; both contexts paint the same specification (`paint`) |
| C52 | `bl_format_info_sanitize`, `bl_pixel_converter_create` with all its initialisers, and the portable conversion functions of one row | a sanitized format describes the same components (`Sane`), every function that can be chosen for it makes the colour of the specification; tables over all component sizes and byte values (at most 16 × 256 × 3 cases) are checked by the kernel and lifted to rows by induction |
| C53 | the BMP decoder (`decoder_read_info_internal`, `decoder_read_frame_internal`, `decodeRLE4/8`, `check_bit_masks`) and encoder (`encoder_write_frame_impl`), from bytes to rows, with the converters of C52 | an accepted header determines the fields the specification reads at fixed places of the file; pixels by C52 row by row; run-length codes by induction over the list of codes with the cursor of the picture as invariant, safety by an invariant over any bytes; round trip by writing the header, reading it back and composing the two conversions |
| C54 | `KernImpl::init` with `check_kern_pairs`, `fix_unsorted_kern_pairs` and the packed groups, and `apply_kern`, on the searches and sorts of C13 and C14 | the specification writes tables as bytes; the groups made of a sub-table are sorted and hold a permutation of its pairs (invariant of the splitting loop, which also bounds its array of ranges); groups with different keys act as one; loops over groups and glyphs are exchanged; safety for any bytes by an invariant of the loading loop |
| C55 | `bl_glyph_buffer_set_text` with its readers, `set_glyphs`, `set_glyphs_from_struct`, `ensure_buffer`, `clear`, `reset`, and `bl_font_map_text_to_glyphs`, `bl_font_position_glyphs`, `bl_font_shape`, `bl_font_apply_kerning` of a font without `GSUB` and `GPOS`, on the readers of C08 | decoding is an inductive relation on bytes, shown to be a function; the loop that stores the text refines it (induction on the rest of the text); an invariant of the two buffers holds over every history with failing allocations |
| C56 | `get_glyph_bounds` and `get_glyph_outlines` of `opentype/otglyf.cpp` with the vertex decoder, on lists of bytes, with rational coordinates | safety by an invariant that ties the counters of the flag loop to the flags read (bytes of coordinates, vertices needed); termination by a measure over the stack of compound glyphs; outlines by refinement of inductive relations for flags, coordinate differences, components and nested drawing |
| C57 | `opentype/otcore.cpp`, `opentype/otmetrics.cpp`, and `bl_font_calc_properties`, `bl_font_shape`, `bl_font_position_glyphs`, `bl_font_get_text_metrics` of `core/font.cpp`, on tables of bytes; layout tables are functions, numbers are rational | each function equals a record over the fields of the tables; a specification per metric instead of per table; texts by induction over the glyphs, with the boxes of C56 |
| C58 | `core/fontdata.cpp` on lists of bytes: creation, the list of tables, looking up tables; tables are ranges of bytes | the directory as a list of records over the fields of the bytes; the index of identifiers as an inverse of the tags (C43 gives that identifiers are those of one tag); the loop over the records by an invariant over the records done |
| C59 | the conversions and comparisons of numbers of `core/var.cpp`; doubles are rational numbers, infinities and NaNs, integers are rounded to 53 bits as IEEE 754 says, conversions to integers that C++ leaves undefined are undefined | one specification for all types through the value of a variant; rounding is exact for doubles and nearest for all integers; large doubles are integers, so that none lies between the largest integer and its bound |
| C60 | `NameImpl::init` and what it calls of `opentype/otname.cpp`, with the UTF-16 reader and UTF-8 writer of `Verif/Unicode` | a separate specification of the text of a string and of the best record; the loop over the records keeps the best of the records before it; the conversion is the inverse of the encoding, trailing null characters are those of the characters |
| C61 | `_init`, `reset`, `clear`, `_alloc` of `support/arenaallocator.cpp`, `alloc`, `remaining_size`, `ensure`, `save_state`, `restore_state` of `arenaallocator_p.h`; addresses are numbers, what `malloc` returns is an argument | histories as an inductive relation with the list of live allocations; an invariant (blocks are apart, live ranges are in earlier blocks or below the pointer of the current one, ends are aligned enough that differences don't wrap around) is kept by every call; counterexamples for odd large sizes, block alignment 64 and `ensure` |
| C42 | copies of the state shared by asynchronous calls (same model as C31) | invariant: a copy marked valid is current |

## Trusted base

Lean 4.33.0 kernel; axioms `propext`, `Classical.choice`, `Quot.sound` only (no axioms of our own, no `sorry`, no
`native_decide`, no `bv_decide`). The correspondence between the C++ code and the model is by reading: every definition
cites the lines it models and the simplifications it makes.

What is modelled, and what is not:

| area (`lean/Verif/...`) | modelled | not modelled |
|---|---|---|
| Qoi | `codec/qoicodec.cpp`: encoder and decoder of pixel data for all formats | file header parsing beyond size and format, codec objects |
| Checksum | portable Adler-32 and CRC-32 | SIMD variants |
| Png | scalar inverse filters | SIMD variants, chunk parsing |
| Pixel, Comp | scalar pixel arithmetic, reference (portable) composition operators | JIT pipelines, SIMD pixel ops |
| IntOps | overflow, saturation and alignment helpers | compiler builtins (the portable fallbacks are modelled) |
| Algo | sorts and searches | |
| Unicode | readers, writers, validation, conversion | SIMD, locale functions |
| Cow, Arr | heap with reference counts, `BLArray` of plain items | arrays of objects, external buffers with destroy callbacks |
| Str | all of `core/string.cpp` and the searches of `core/string.h`, in place and dynamic strings, self-referencing arguments | `strlen` for size `SIZE_MAX`, `vsnprintf` itself (its output is an argument), 32-bit targets |
| BitArr | all of `core/bitarray.cpp`, in place and dynamic bit arrays | constructors other than the default one, aliased word arguments; words of a buffer that are not in use are not represented, using them before they are written is an error |
| BitSet | `core/bitset.cpp`: `has_bit`, `add_bit`, `clear_bit`, `add_range`, `clear_range`, `assign_range`, `clear`, `is_empty`, cardinality with its cache, `get_range`, `has_bits_in_range`, the word iterator of `core/bitset.h`, on all three representations | assignment of words, `chop`, comparison and subsumption, builders; 32-bit targets; memory in use by other objects (whether an implementation is shared is an argument of every call); no allocation failures |
| GradLut | `pixelops/interpolation.cpp`: `interpolate_prgb32`, `interpolate_prgb64` (portable implementations), `round_to_int`, `rgba32FromRgba64`; offsets are rational numbers and their product with the width is any function that is exact for 0 and 1 and monotone, which includes the multiplication of doubles | the SSE2/AVX2 implementations of the same functions, the cache of tables (`BLGradientLUT`) and the choice of the table size |
| CMap | `opentype/otcmap.cpp` (all functions), the layout of `otcmap_p.h`; not modelled: diagnostic flags, the symbol flag of the face, and the bit set that the coverage is stored in (see BitSet) |
| Path | `core/path.cpp`: all calls that build or change paths, `add_geometry` for boxes, rectangles, ellipses, circles, rounded rectangles, lines, triangles, polylines, polygons and arrays of boxes or rectangles (paths by `add_path`), `get_info_flags`, boxes, figure range, last vertex, vertices; cached boxes and flags; doubles are rational numbers or NaN | rounding, infinities; `hit_test`, `get_closest_vertex`, stroking, reversed copies of paths, elliptic arcs; the extrema of cubics and conics are parameters; writing the cache of a shared path is one step |
| Fill | `pipeline/reference/fillgeneric_p.h` `FillAnalytic_Base`, `pipeline/reference/compopgeneric_p.h` spans; any composition operator and fetcher position | JIT pipelines; 32-bit words; the fetchers (see Pattern) |
| FillMask | `pipeline/reference/fillgeneric_p.h` `FillBoxA_Base`, `FillMask_Base`; `pipeline/pipedefs_p.h` `MaskCommand`, `init_box_u_8bpc_24x8`; `raster/rendercommandprocsync_p.h` and `raster/rendercommandprocasync_p.h` box and mask commands | JIT pipelines; the fetchers; clipping of the box to the image (a hypothesis); two-stage pipelines |
| Raster | `raster/analyticrasterizer_p.h` `AnalyticUtils`, `AnalyticRasterizer` (`prepare_ref`, `advanceToY`, `rasterize` with and without banding, cell merging, bounds) | cells are integers (32-bit wrapping words in the code); the bit words are marks of ranges of groups; the band offset of row pointers; which edges exist (edge builder) |
| Draw | `raster/rendercommandprocsync_p.h` `fill_analytic`; `bit_fill`, `bit_set`, `cell_add`, `cell_merge` of `raster/analyticrasterizer_p.h`; `EdgeVector`, `bandStartFromBBox`, `bandEndFromBBox` of `raster/edgestorage_p.h` | linked lists are lists, the pool of active edges and running out of memory; the edge builder (its guarantees are the hypotheses `Shape`) |
| Async | `raster/rendercommandprocasync_p.h` `fill_analytic`, `init_band`; `raster/workerproc.cpp` `process_band`, `process_commands`; `calculate_command_quantization_shift` of `raster/rastercontext.cpp`; `flatten_edge_links` of `raster/edgestorage_p.h` | commands other than shapes, the vectorised search for commands, the word structure of the pending bits, the pool of active edges and its failure; a worker's band is one step (bands of different workers are different scanlines) |
| Gradient | all of `core/gradient.cpp`: stops, values, transformation, sharing, caches | the pixels of lookup tables and their reference counts; rounding of transformations (exact rationals); `-0.0` is `0.0`; a new impl is filled before it enters the heap |
| FontTag | `core/fonttagdataids*` (five dictionaries), `core/fonttagdata_p.h` `is_valid_tag`, `core/fonttagset*`, `support/fixedbitarray_p.h` | the language dictionary; the arrays holding tags are values (C15); no allocation failures |
| Settings, Variation | all of `core/fontvariationsettings.cpp` but constructors and iteration; tags, in place words, dynamic blocks, sharing | values are the bits of a `float`, its comparisons are defined on the bits |
| PixConv | `core/format.cpp` `bl_format_info_sanitize`, `core/pixelconverter.cpp`: creation and the portable conversion functions, one row | the gap between rows, rectangles (every row alone), copies of converters and their shared palettes, the vectorised functions |
| Bmp | `codec/bmpcodec.cpp`: decoder and encoder | the object interface of codecs (`restart`, inspection of properties, frame counter), growing of the output array, resolution fields |
| Kern | `opentype/otkern.cpp`, `otkern_p.h`: loading and application | failing allocations, diagnostic flags, 32-bit overflow of sums of kerning values (needs more than 65536 groups), the functions for formats 2 and 3, which are never called (`load_format`) |
| GlyphBuffer | `core/glyphbuffer.cpp`, `core/glyphbuffer_p.h`; mapping, positioning and shaping in `core/font.cpp` | `GSUB`/`GPOS`, debug sinks, the allocation of the implementation object, the font's own tables (a face is a function from code points to glyphs, from glyphs to advances, and from runs to kerned placements) |
| Glyf | `opentype/otglyf.cpp` (portable code), `otglyf_p.h`, the appender of `core/path_p.h` as far as it is used | `otglyfsimdimpl_p.h`, rounding of `double`, `Geometry::magnitude` (a parameter), failing allocations, `init` of the tables |
| FaceMetrics | `opentype/otcore.cpp`, `opentype/otmetrics.cpp`, the metrics and shaping calls of `core/font.cpp` | names, `cmap` (C45), layout tables (parameters), rounding of `float` and `double`, failing allocations, bounds of CFF glyphs |
| FontData | `core/fontdata.cpp`: `bl_font_data_create_from_data_internal`, `mem_get_table_tags_impl`, `mem_get_tables_impl` | reading files, the cache of faces, reference counts, failing allocations |
| VarNum | `core/var.cpp`: conversions to numbers and comparisons | colours, objects other than strings, assignment and reference counts, the sign of zero |
| NameTable | `opentype/otname.cpp`, `opentype/otname_p.h` | tracing, failing allocations, language tags (not read by the code) |
| Arena | `support/arenaallocator.cpp`, `support/arenaallocator_p.h`: `init`, `alloc`, `ensure`, `save_state`, `restore_state`, `clear`, `reset`, and `ArenaPool` | `alloc_zeroed`, `reuse_past_block` (not used by the library), the containers built on it, alignments above 16 |
| Feature | `core/fontfeaturesettings.cpp`: in place words (bit features, packed identifiers and values), conversions, on top of Settings | as Variation; `FontFeatureSettingsInternal` plan queries are not modelled |
| RefCount, Publish, UniqueId | atomic operations as single steps of a transition system; acquire/release via happens-before ghost state for RefCount and Publish | weak memory effects other than those |
| Thread | `threading/thread.cpp`: `run`, `quit`, entry points (futex and portable), any number of concurrent calls, sequentially consistent | thread creation and destruction, `was_thread_terminated` (Windows), weak memory |
| ThreadPool | acquire, release, cleanup, destruction under its mutex | operating system threads |
| Worker | job and band distribution, futex synchronization | mutex/condition variable fallback; contents of jobs |
| ArenaTree | `support/arenatree_p.h`: insertion, removal, rotations, lookup; every pointer variable of the loops is checked to point where the code needs it | nodes that compare equal; links and colour that a removed node keeps (the caller resets them before inserting it again, as the assertions demand) |
| Deflate | `compression/deflatedecoder.cpp` on 64-bit targets: `build_decode_table` with its three result tables, `init`, the states and loops of `decode` (bit buffer, headers, code lengths, stored blocks, optimized and safe tail loops, growing output, several chunks) | `build_fast_table` and the fast loop, which is entered only when 176 bytes of input and 450 bytes of output are available; the union of the arrays (they are separate in the model); statistics; 32-bit targets; calling `decode` again after it succeeded |
| ZeroAlloc, HashMap, List2, BitOps, Random | the complete containers | other word sizes than those of 64-bit targets, unless stated |
| Matrix | `core/matrix.cpp` in exact arithmetic over a field | rounding of `double`, NaN and infinity, SIMD |
| Pattern | `pipeline/reference/fetchgeneric_p.h` vertical, horizontal and affine contexts, aligned, fractional and affine fetchers; set-up in `pipedefs.cpp` | blit fetcher, JIT fetchers, rounding of `double` in the affine set-up |
| CompOp | all of `core/compopsimplifyimpl_p.h` and the record packing of `core/compopinfo_p.h` | 64-bit formats; the pipelines that execute the simplified operators (see Comp), rounding to 8 bits; the formulas of the operators are the specification |
| SaveRestore | all state setters, save, restore, shared states of the raster context, exact arithmetic | rendering, NaN, the dash array's reference count, `discard_states` |

## Disagreements

Where the code does not do what the property says. Each entry names the theorem that exhibits it.

* C06: rows with an invalid filter type are treated as unfiltered rather than rejected (part of the specification used).
* C07: UTF-8 validation accepts encoded surrogates (`C07_validate_utf8_counterexample`,
  `C07_surrogate_counterexample`); Latin-1 to UTF-8 reports index 0 on the checked path
  (`C07_latin1_utf8_index_counterexample`); UTF-16/32 sources whose byte size is not a multiple of the unit size convert
  with success (`C07_odd_source_counterexample`) or report missing space (`C07_odd_utf16_copy_counterexample`).
* C11: SrcOver of a source that is not premultiplied carries between channels (`C11_src_over_needs_premultiplied`).
* C12: `dst-in` of the zero color to `xrgb32` is a no-operation instead of clearing (`C12_dst_in_zero_is_nop`); `color-dodge`
  of an alpha-only source becomes `src-over`, which makes black white (`C12_color_dodge_a8`).
* C15: `assign_data` and `resize` with sizes near the limit overflow (`C15_assign_data_overflows`, `C15_resize_overflow`);
  `replace_data` gives a wrong result (`C15_replace_data_wrong`, `C15_replace_data_overlap`).
* C17: the mutability test is a plain load, so a write after it is not ordered after the reads of other threads that
  released their handle (`C17_write_not_ordered`).
* C18: assigning at most 14 characters to a shared string with a fitting operation replaces it by uninitialised memory
  (`C18_assign_to_shared_breaks`); `reserve` of a size near `SIZE_MAX` overflows (`C18_reserve_overflows`); a formatting call
  that runs out of memory destroys the NUL or the content (`C18_failed_format_breaks`). `compare` returns the difference of
  the first bytes that differ, not -1, 0 or 1 as documented; its sign is right.
* C19: modifying a shared bit array loses its bits (`C19_counterexample_modify_shared`) or works on uninitialised words
  (`C19_counterexample_modify_shared_large`); `assign_words` with more than three words, or on a dynamic array, makes it empty
  (`C19_counterexample_assign_words`); `resize` to more than 96 bits leaves uninitialised words (`C19_counterexample_resize`);
  `reserve` below the size of a shared array overflows (`C19_counterexample_reserve`); `append_words`, `fill_words`,
  `clear_words`, `replace_words` at unaligned positions read beyond their argument or ignore bits
  (`C19_counterexample_append`, `C19_counterexample_fill_words`, `C19_counterexample_no_words`); the range queries shift by the
  word size or more (`C19_counterexample_range`). A dynamic array that would exceed 2^32-1 bits is not reported.
* C20: assigning stops that are not sorted loses the last one (`C20_sorting_loses_a_stop`); removing a stop of a shared
  gradient removes all stops (`C20_removing_from_shared_removes_all`); replacing a stop with an invalid offset fails but
  removes it (`C20_failed_replace_removes`); making a shared gradient mutable clears the values its type does not have
  (`C20_values_depend_on_sharing`); `reserve` below the size of a shared gradient overflows (`C20_reserve_overflows`);
  `equals` ignores values (`C20_equals_ignores_values`).
* C22: `acquire` with the all-or-nothing flag hands out uninitialised entries when no thread could be started
  (`C22_all_or_nothing_hands_out_garbage`).
* C23: on targets with 32-bit atomics identifiers repeat (`C23_32bit_duplicates`).
* C27: the growth threshold wraps for tables of more than 374358107 buckets; only speed depends on it.
* C29: `reset_to_rotation` about a point moves that point (`C29_reset_to_rotation_moves_its_centre`); a matrix with a zero
  determinant can be classified as affine (`C29_degenerate_matrix_classified_affine`).
* C31: `set_stroke_cap(s)` and `set_stroke_join` leak out of `restore` (`C31_stroke_join_leaks_out_of_restore`); the clip box
  in pixels can grow over save and restore (`C31_pixel_clip_changes_after_restore`); `swap_styles` drops a reference
  (`C31_swap_styles_releases_saved_style`) and disables styles (`C31_swap_styles_disables_styles`); style setters accept
  slots out of range (`C31_invalid_slot_writes_out_of_bounds`); `restore_clipping` keeps the clip mode
  (`C31_restore_clipping_keeps_clip_mode`).
* C33: signed 64-bit multiplication misses overflows (`C33_mul_signed64_counterexample`); the signed clamp and
  `pmod` are wrong for some signed operands (`C33_clamp_signed_counterexample`, `C33_pmod_signed_counterexample`).
* C34: `reset` of a list leaves the links of its former nodes in place, so they may not be inserted elsewhere.
* C37: setting -0.0 over 0.0 keeps 0.0 in dynamic settings (`C37_negative_zero_counterexample`); settings with a NaN value are not
  equal to themselves in some representations (`C37_nan_equality_counterexample`).
* C21: four defects of feature settings without heap storage.  `has_value` searches 'cv42' instead of the tag it is asked for
  (`C21_has_value_counterexample`); `set_value` accepts 16..255 for features that have four bits and corrupts the next one
  (`C21_set_value_counterexample`); a value above one is refused or accepted for on/off features depending on the storage
  (`C21_bit_value_counterexample`); `remove_value` of a feature between two others zeroes the value of the next one
  (`C21_remove_value_counterexample`).
* C36: `add_range` before words that are stored in the object writes outside of the object (`C36_add_range_overflow`);
  `add_range` ending in the first block of a run removes the rest of the run (`C36_add_range_loses_bits`); `clear_range` inside
  one 128-bit block of a run stores the block twice and falsifies the cardinality (`C36_clear_range_cardinality`);
  `clear_range` ending in the last block of a run that is followed by another segment writes outside of a segment
  (`C36_clear_range_overflow`); `assign_range` writes two segments into room for one (`C36_assign_range_overflow`);
  `get_range` reports success for the empty set although the documentation says otherwise (`C36_get_range_empty`);
  `clear_bit` in a range inside the last word makes `has_bits_in_range` wrong (`C36_clear_bit_last_word`).
* C39: the two words of the object are stored by plain stores; if the compiler reorders them, a reader can see a torn
  object (`C39_torn`).
* C40: with futexes, when `quit` comes between the two steps of a `run`, the worker may exit and the item is lost although `run`
  returns success (`C40_futex_lost_item`).
* C42: approximation options of asynchronous strokes can be stale (`C42_stroke_job_gets_stale_approximation_options`).
* C43: `has_script_tag`, `has_feature_tag` and `has_variation_tag` deny every tag outside the dictionary
  (`C43_has_unknown_tag_counterexample`).
* C48: an asynchronous context ignores a global alpha less than 255 when it fills a mask: the two mask command types are exchanged
  with respect to the synchronous code (`rendercommandprocasync_p.h:216`, `rendercommandprocsync_p.h:73`;
  `C48_counterexample_mask_alpha`).
* C48 (latent): the reference mask loop does not move the destination pointer over a gap between two mask commands
  (`C48_counterexample_mask_gap`); no command list that is built today has gaps.
* C49: a steep edge that is one or two units away from a diagonal can be painted wrongly where it passes a pixel corner: its vertical
  crossing is masked with 255 although it is 256 (`analyticrasterizer_p.h:595, 655, 758, 817`; `C49_glitch`: the edge from
  (156, 155) to (356, 356) leaves -15500 instead of 10100 in its first pixel; `C49_glitch_diagonal`: no other edges).
* C25 (portable fallback, not modelled): `thread_done` decrements the counter before it locks the mutex, so the
  synchronization object can be destroyed in between.
* C35: the fast loop does not mask the payload of an invalid offset entry and reads 128 kB behind the offset table when the input
  has the offset symbol 30 or 31 (`C35_fast_offset_counterexample`, `C35_fast_static_offset_counterexample`).
* C35: a stored block after a compressed block can be followed by garbage: bits of the last word-wise refill stay above the length
  of the bit buffer and are or-ed into the next header.  A valid stream of 38 bytes is decoded to wrong data without an error
  (`C35_stored_after_compressed_counterexample`).
* C35: with an offset code that has codewords for the symbols 30 or 31, whether a stream is accepted depends on how it is split
  (`C35_split_counterexample`).
* C35: `decode` called after it has succeeded does not return: its state loop only grows the output (not a theorem, the model has
  the transition `done`).
* C45: entries of the glyph array of format 4 that are zero mean the missing glyph, but `idDelta` is added to them
  (`C45_format4_zero_entry`); a sub-table of format 12 or 13 without groups at the end of the table is read 8 bytes beyond its end
  while it is validated (`C45_empty_groups_read_outside`); the length of format 6 is tested against the header of format 10, so
  small well-formed sub-tables are rejected (`C45_format6_rejected`).  The coverage of formats 4, 12 and 13 also contains
  characters of segments that are mapped to the missing glyph.
* C46: a polygon added counter-clockwise is read one point beyond its end and loses its first point
  (`C46_counterexample_polygon_ccw`); boxes and rectangles of an array added counter-clockwise are read far outside of the array
  (`C46_counterexample_boxes_ccw`); `reserve` of a huge number of items overflows the size computation and the next command is
  written outside of the storage (`C46_counterexample_reserve`); `clear` of a path that is not shared keeps the boxes of its
  former content (`C46_counterexample_clear`); the control box of a conic contains its weight instead of its control point
  (`C46_counterexample_conic_control_box`); the figure range of a CLOSE that is not followed by MOVE spans two figures
  (`C46_counterexample_figure_range`); `fit_to` of a range that starts with a curve reads before the first vertex
  (`C46_counterexample_fit_to`); `translate` and `transform` also move the weight of conics
  (`C46_counterexample_translate_conic`); the last command of a curve is not tested (`C46_counterexample_quad_end`).
  Not modelled: `get_closest_vertex` tests the result of computing the boxes the wrong way around and can return success with
  the index `SIZE_MAX`; `hit_test` refuses conics; `add_geometry` of a path to itself, reversed, reads beyond its end; two threads
  that ask for the boxes of a shared path write its cache without synchronisation.
* C52: byte-swapped formats without a component that spans two bytes are read with parts of their bytes exchanged
  (`C52_byte_swap_counterexample`); 16 bits of alpha become black (`C52_alpha_16_counterexample`); a converter between two formats
  that are not native calls a null pointer, because the second step is initialised into the first
  (`C52_two_formats_counterexample`); the luminance of a colour is the bitwise or of its components
  (`C52_luminance_counterexample`); the unused byte of `XRGB32` becomes alpha (`C52_opaque_counterexample`); formats with alpha
  become premultiplied although `ARGB32` is asked for (`C52_argb32_counterexample`); two alphas 0 and 1 of a palette become 0 and
  255 (`C52_one_bit_counterexample`).  Not modelled: with `DONT_COPY_PALETTE` the palette of the caller is overwritten when its
  conversion is a copy with a fill mask.
* C53: a move of the run-length code to the row below the image writes there (`C53_rle_move_counterexample`); an absolute run that
  is longer than the rest of its row takes less data than it has, and the rest is read as codes (`C53_rle_long_run_counterexample`);
  the size of the encoded file is computed with 32 bits, so an image of 32768 × 32768 pixels is written outside of the buffer
  (`C53_encode_overflow_counterexample`).  Modelled as they are: the header of version 5 is recognised by the size 12 instead of 124,
  so such files are refused; more than 8 bits per pixel with a compression other than none or masks are read as if uncompressed;
  the masks of headers of version 2 and above are used even if the compression does not say so.
* C54: the format of a kerning group is stored at bit 2 and read at bit 4, so sub-tables of formats 2 and 3 are taken for as many pairs
  as they have bytes, with the override flag, and read outside of the table (`C54_format2_counterexample`); the test of format 3 in the
  function that is never called is reversed; values across the line are applied along it (`C54_cross_counterexample`); a pair that is
  repeated in an unsorted table can count twice (`C54_repeated_counterexample`); placements that positioning has given to glyphs become
  part of the advance of the glyph before (`C54_placement_counterexample`).
* C55: the flag for invalid text is set while a text is read and cleared behind it (`C55_invalid_text_counterexample`);
  `BLGlyphBuffer::set_glyphs` passes the size of a 16-bit glyph id as the distance of 32-bit ids (`C55_set_glyphs_counterexample`);
  storing a text or glyphs keeps the placements of the run before, which can be fewer (`C55_placement_counterexample`), and kerning
  them writes outside (`C55_kerning_counterexample`).
* C56: the sizes of the x and y coordinates are packed in two halves of one number, and 32768 points with two bytes each overflow
  the lower half, so that coordinates are read outside of the `glyf` table (`C56_points_counterexample`); a contour that starts and ends
  off the curve ends halfway between its first point and its start instead of at its start (`C56_start_counterexample`); an error in the
  ends of contours leaves the path enlarged by vertices that are not initialized (`C56_garbage_counterexample`).  Decoding always ends,
  but 15 levels of compound glyphs can make the number of steps exponential in the nesting.
* C57: `bl_font_position_glyphs` ignores the result of `get_glyph_advances`; with a font that has no `hmtx` table, measuring a text reads
  placements that were never written (`C57_text_counterexample`).  The number of bearings behind the records of `hmtx` is computed from a
  difference that wraps around; nothing uses it.
* C58: asking for 3 to 254 tables at once finds nothing if one of the tags is not known, although the comment in the code promises a
  linear search (`C58_unknown_counterexample`); a tag that is repeated in the request is found at its last position only
  (`C58_twice_counterexample`); with a directory that repeats a tag the last record wins instead of the first one, and the result can be
  larger than the number of tags (`C58_count_counterexample`).
* C59: `bl_var_equals` compares the first of two doubles with itself, so that all doubles are equal (`C59_equals_counterexample`);
  `bl_var_to_int64` and `bl_var_to_uint64` convert 2^63 and 2^64, which is undefined (`C59_int64_counterexample`); `bl_var_to_double` and the
  comparisons convert doubles back that are out of range (`C59_double_counterexample`); `bl_var_to_bool` of a string returns 1 or 0 instead
  of writing its result (`C59_string_counterexample`).
* C60: a family name of the model of weight, width and slope (21) is stored after the basic one (1) and replaces it when there is no
  typographic name, although the comment in the code says it is used only if there is no other choice; the same holds for subfamilies
  (`C60_wws_counterexample`).
* C61: an allocation larger than a block whose size is no multiple of 16 leaves an unaligned end of the block; a following allocation
  with an alignment can move the pointer behind that end, the difference wraps around and memory behind the block is returned
  (`C61_size_counterexample`); with a block alignment of 64 `clear` of an empty arena moves the pointer behind the zero block
  (`C61_clear_counterexample`); `ensure(size)` allocates a block for zero bytes and succeeds without the room asked for
  (`C61_ensure_counterexample`); a state that is saved when the
  block is exactly full is restored to the begin of the first block, so that what was allocated before is given out again
  (`C61_restore_counterexample`).
