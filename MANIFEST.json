{
 "claims": [
  {
   "property": "C01",
   "status": "proved",
   "theorems": [
    "Blend2D.Qoi.C01_roundtrip_prgb32",
    "Blend2D.Qoi.C01_roundtrip_xrgb32",
    "Blend2D.Qoi.C01_roundtrip_a8"
   ],
   "note": ""
  },
  {
   "property": "C02",
   "status": "proved",
   "theorems": [
    "Blend2D.Qoi.C02_decoder_safe",
    "Blend2D.Qoi.C02_no_success_without_data"
   ],
   "note": ""
  },
  {
   "property": "C03",
   "status": "proved",
   "theorems": [
    "Blend2D.Qoi.C03_encoder_bound"
   ],
   "note": ""
  },
  {
   "property": "C04",
   "status": "proved",
   "theorems": [
    "Blend2D.Checksum.C04_adler32_is_rfc1950",
    "Blend2D.Checksum.C04_adler32_incremental"
   ],
   "note": ""
  },
  {
   "property": "C05",
   "status": "proved",
   "theorems": [
    "Blend2D.Checksum.C05_crc32_is_polynomial_division",
    "Blend2D.Checksum.C05_crc32_incremental"
   ],
   "note": ""
  },
  {
   "property": "C06",
   "status": "proved",
   "theorems": [
    "Blend2D.Png.C06_paeth_exact",
    "Blend2D.Png.C06_inverse_filter"
   ],
   "note": ""
  },
  {
   "property": "C07",
   "status": "partial",
   "theorems": [
    "Blend2D.Unicode.C07_validate_reports_prefix",
    "Blend2D.Unicode.C07_validate_exact",
    "Blend2D.Unicode.C07_validate_utf8_partial",
    "Blend2D.Unicode.C07_validate_utf8_accepts",
    "Blend2D.Unicode.C07_validate_utf8_counterexample",
    "Blend2D.Unicode.C07_convert_partial",
    "Blend2D.Unicode.C07_latin1_utf8_checked",
    "Blend2D.Unicode.C07_latin1_utf8_index_counterexample",
    "Blend2D.Unicode.C07_odd_source_counterexample",
    "Blend2D.Unicode.C07_odd_utf16_copy_counterexample",
    "Blend2D.Unicode.C07_surrogate_counterexample",
    "Blend2D.Unicode.C07_convert_wellformed",
    "Blend2D.Unicode.C07_round_trip"
   ],
   "note": "Validation of UTF-8 and conversion are exact except for encoded surrogates and odd-sized UTF-16/32 sources, which the code accepts (counterexample theorems)."
  },
  {
   "property": "C08",
   "status": "proved",
   "theorems": [
    "Blend2D.Unicode.C08_next_safe",
    "Blend2D.Unicode.C08_write_safe",
    "Blend2D.Unicode.C08_validate_safe",
    "Blend2D.Unicode.C08_convert_safe"
   ],
   "note": ""
  },
  {
   "property": "C09",
   "status": "proved",
   "theorems": [
    "Blend2D.Pixel.C09_udiv255_exact",
    "Blend2D.Pixel.C09_udiv255_neutral",
    "Blend2D.Pixel.C09_udiv65535_exact",
    "Blend2D.Pixel.C09_udiv65535_packed_exact"
   ],
   "note": ""
  },
  {
   "property": "C10",
   "status": "proved",
   "theorems": [
    "Blend2D.Pixel.C10_premultiply_exact",
    "Blend2D.Pixel.C10_unpremultiply_exact",
    "Blend2D.Pixel.C10_premultiply_unpremultiply",
    "Blend2D.Pixel.C10_premultiply64_exact"
   ],
   "note": ""
  },
  {
   "property": "C11",
   "status": "proved",
   "theorems": [
    "Blend2D.Comp.C11_src_copy",
    "Blend2D.Comp.C11_src_copy_mask",
    "Blend2D.Comp.C11_src_over",
    "Blend2D.Comp.C11_src_over_mask",
    "Blend2D.Comp.C11_src_over_needs_premultiplied",
    "Blend2D.Comp.C11_src_over_premultiplied",
    "Blend2D.Comp.C11_plus",
    "Blend2D.Comp.C11_plus_mask",
    "Blend2D.Comp.C11_mask_neutral",
    "Blend2D.Comp.C11_cspan_fast_path",
    "Blend2D.Comp.C11_vspan_global_alpha",
    "Blend2D.Comp.C11_a8"
   ],
   "note": ""
  },
  {
   "property": "C12",
   "status": "partial",
   "theorems": [
    "Blend2D.CompOp.C12_simplify_partial",
    "Blend2D.CompOp.C12_dst_in_zero_is_nop",
    "Blend2D.CompOp.C12_color_dodge_a8",
    "Blend2D.CompOp.C12_packed"
   ],
   "note": "Every table entry except dst-in of zero to xrgb32 and color-dodge of alpha-only sources, which change the result (counterexample theorems), and color-burn of alpha-only sources below the smallest divisor. Exact arithmetic, any coverage."
  },
  {
   "property": "C13",
   "status": "proved",
   "theorems": [
    "Blend2D.Algo.C13_insertion_sort",
    "Blend2D.Algo.C13_quick_sort"
   ],
   "note": ""
  },
  {
   "property": "C14",
   "status": "proved",
   "theorems": [
    "Blend2D.Algo.C14_lower_bound",
    "Blend2D.Algo.C14_lower_bound_safe",
    "Blend2D.Algo.C14_binary_search",
    "Blend2D.Algo.C14_closest_first",
    "Blend2D.Algo.C14_closest_last",
    "Blend2D.Algo.C14_binary_search_safe"
   ],
   "note": ""
  },
  {
   "property": "C15",
   "status": "partial",
   "theorems": [
    "Blend2D.Arr.C15_arrays_are_lists_partial",
    "Blend2D.Arr.C15_calls_are_safe_partial",
    "Blend2D.Arr.C15_equals",
    "Blend2D.Arr.C15_reserve",
    "Blend2D.Arr.C15_assign_data_overflows",
    "Blend2D.Arr.C15_replace_data_wrong",
    "Blend2D.Arr.C15_replace_data_overlap",
    "Blend2D.Arr.C15_resize_overflow"
   ],
   "note": "Proved for every history of calls whose sizes do not overflow and, for replace_data, with the replaced range inside the array; counterexample theorems show the excluded calls. Arrays of objects not modelled."
  },
  {
   "property": "C16",
   "status": "partial",
   "theorems": [
    "Blend2D.Arr.C16_independent_partial",
    "Blend2D.Arr.C16_no_leak_no_dangling_partial"
   ],
   "note": "Same restriction on calls as C15."
  },
  {
   "property": "C17",
   "status": "proved",
   "theorems": [
    "Blend2D.RefCount.C17_never_used_after_free",
    "Blend2D.RefCount.C17_freed_once_after_last_handle",
    "Blend2D.RefCount.C17_accesses_happen_before_free",
    "Blend2D.RefCount.C17_writer_is_alone",
    "Blend2D.RefCount.C17_write_not_ordered"
   ],
   "note": ""
  },
  {
   "property": "C18",
   "status": "partial",
   "theorems": [
    "Blend2D.Str.C18_strings_are_lists_partial",
    "Blend2D.Str.C18_terminated_partial",
    "Blend2D.Str.C18_calls_are_safe_partial",
    "Blend2D.Str.C18_independent_partial",
    "Blend2D.Str.C18_no_leak_no_dangling_partial",
    "Blend2D.Str.C18_reserve_partial",
    "Blend2D.Str.C18_equals_partial",
    "Blend2D.Str.C18_equals_data_partial",
    "Blend2D.Str.C18_compare_partial",
    "Blend2D.Str.C18_compare_data_partial",
    "Blend2D.Str.C18_index_of",
    "Blend2D.Str.C18_last_index_of",
    "Blend2D.Str.C18_assign_to_shared_breaks",
    "Blend2D.Str.C18_reserve_overflows",
    "Blend2D.Str.C18_failed_format_breaks"
   ],
   "note": "Proved for every history of calls except: fitting assign/append of a result of at most 14 characters to a string that is shared or has no room, reserve of more than 2^64-18, and format calls that overflow at least 64 spare bytes and then get no memory; counterexample theorems show each of these breaks the string."
  },
  {
   "property": "C19",
   "status": "partial",
   "theorems": [
    "Blend2D.BitArr.C19_bit_arrays_are_lists_partial",
    "Blend2D.BitArr.C19_unused_bits_are_zero_partial",
    "Blend2D.BitArr.C19_calls_are_safe_partial",
    "Blend2D.BitArr.C19_independent_partial",
    "Blend2D.BitArr.C19_no_leak_no_dangling_partial",
    "Blend2D.BitArr.C19_reserve_partial",
    "Blend2D.BitArr.C19_cardinality_partial",
    "Blend2D.BitArr.C19_range_queries_partial",
    "Blend2D.BitArr.C19_get_range_partial",
    "Blend2D.BitArr.C19_relations_partial",
    "Blend2D.BitArr.C19_counterexample_modify_shared",
    "Blend2D.BitArr.C19_counterexample_modify_shared_large",
    "Blend2D.BitArr.C19_counterexample_assign_words",
    "Blend2D.BitArr.C19_counterexample_resize",
    "Blend2D.BitArr.C19_counterexample_reserve",
    "Blend2D.BitArr.C19_counterexample_append",
    "Blend2D.BitArr.C19_counterexample_fill_words",
    "Blend2D.BitArr.C19_counterexample_no_words",
    "Blend2D.BitArr.C19_counterexample_range"
   ],
   "note": "Proved for every history of calls that avoid the defects exhibited by the C19_counterexample theorems (modifying shared arrays, assign_words of more than three words, growing resize with reallocation, unaligned word operations with an odd rest, range queries within one word)."
  },
  {
   "property": "C20",
   "status": "partial",
   "theorems": [
    "Blend2D.Gradient.C20_stops_valid",
    "Blend2D.Gradient.C20_calls_partial",
    "Blend2D.Gradient.C20_calls_effect",
    "Blend2D.Gradient.C20_assign",
    "Blend2D.Gradient.C20_rendering_uses_current_stops",
    "Blend2D.Gradient.C20_no_leak_no_dangling",
    "Blend2D.Gradient.C20_index_of_stop",
    "Blend2D.Gradient.C20_equals_partial",
    "Blend2D.Gradient.C20_info",
    "Blend2D.Gradient.C20_created_values",
    "Blend2D.Gradient.C20_sorting_loses_a_stop",
    "Blend2D.Gradient.C20_removing_from_shared_removes_all",
    "Blend2D.Gradient.C20_failed_replace_removes",
    "Blend2D.Gradient.C20_values_depend_on_sharing",
    "Blend2D.Gradient.C20_reserve_overflows",
    "Blend2D.Gradient.C20_equals_ignores_values"
   ],
   "note": "Stop validity, fresh caches, independence and reference counts are proved for every history of memory safe calls. That each call has its documented effect is proved for the calls that avoid the defects exhibited by the counterexample theorems (sorting assignments, removals from shared gradients, replace with an invalid offset, values beyond the type of a shared gradient, reserve on a shared gradient); equals ignores values."
  },
  {
   "property": "C21",
   "status": "partial",
   "theorems": [
    "Blend2D.Feature.C21_calls_partial",
    "Blend2D.Feature.C21_view",
    "Blend2D.Feature.C21_get_value",
    "Blend2D.Feature.C21_has_value_partial",
    "Blend2D.Feature.C21_equals",
    "Blend2D.Feature.C21_no_leak",
    "Blend2D.Feature.C21_has_value_counterexample",
    "Blend2D.Feature.C21_set_value_counterexample",
    "Blend2D.Feature.C21_bit_value_counterexample",
    "Blend2D.Feature.C21_remove_value_counterexample"
   ],
   "note": "Every history of calls on any number of shared objects. Excluded, each with a counterexample theorem: on objects without heap storage set_value of a wide feature with 16..255 and of an on/off feature above 1, remove_value of a wide feature between two others, has_value of a wide feature."
  },
  {
   "property": "C22",
   "status": "partial",
   "theorems": [
    "Blend2D.ThreadPool.C22_threads_owned_once_partial",
    "Blend2D.ThreadPool.C22_no_thread_lost_partial",
    "Blend2D.ThreadPool.C22_acquire_partial",
    "Blend2D.ThreadPool.C22_release_cleanup_partial",
    "Blend2D.ThreadPool.C22_all_or_nothing_hands_out_garbage"
   ],
   "note": "All-or-nothing acquisition that fails to start any thread is excluded (counterexample theorem)."
  },
  {
   "property": "C23",
   "status": "proved",
   "theorems": [
    "Blend2D.UniqueId.C23_unique",
    "Blend2D.UniqueId.C23_unique_no_tls",
    "Blend2D.UniqueId.C23_32bit_duplicates"
   ],
   "note": ""
  },
  {
   "property": "C24",
   "status": "proved",
   "theorems": [
    "Blend2D.Worker.C24_job_at_most_once",
    "Blend2D.Worker.C24_band_at_most_once",
    "Blend2D.Worker.C24_batch_complete",
    "Blend2D.Worker.Queue.C24_worker_finds_its_jobs"
   ],
   "note": ""
  },
  {
   "property": "C25",
   "status": "proved",
   "theorems": [
    "Blend2D.Worker.C25_barrier",
    "Blend2D.Worker.C25_no_deadlock",
    "Blend2D.Worker.C25_terminates"
   ],
   "note": ""
  },
  {
   "property": "C26",
   "status": "proved",
   "theorems": [
    "Blend2D.ZeroAlloc.C26_no_undefined_behaviour",
    "Blend2D.ZeroAlloc.C26_alloc_returns_fresh_zeroed_memory",
    "Blend2D.ZeroAlloc.C26_live_allocations_disjoint_and_owned",
    "Blend2D.ZeroAlloc.C26_release_succeeds"
   ],
   "note": ""
  },
  {
   "property": "C27",
   "status": "proved",
   "theorems": [
    "Blend2D.HashMap.C27_reciprocal_mod_exact",
    "Blend2D.HashMap.C27_map_is_collection"
   ],
   "note": ""
  },
  {
   "property": "C28",
   "status": "proved",
   "theorems": [
    "Blend2D.Random.C28_step_injective",
    "Blend2D.Random.C28_never_zero",
    "Blend2D.Random.C28_purely_periodic",
    "Blend2D.Random.C28_double_in_unit_interval"
   ],
   "note": ""
  },
  {
   "property": "C29",
   "status": "partial",
   "theorems": [
    "Blend2D.Matrix.C29_apply_op",
    "Blend2D.Matrix.C29_apply_op_sequence",
    "Blend2D.Matrix.C29_multiply",
    "Blend2D.Matrix.C29_map_vector",
    "Blend2D.Matrix.C29_reset_to",
    "Blend2D.Matrix.C29_reset_to_rotation_partial",
    "Blend2D.Matrix.C29_reset_to_rotation_moves_its_centre",
    "Blend2D.Matrix.C29_invert",
    "Blend2D.Matrix.C29_invert_refused_iff_singular",
    "Blend2D.Matrix.C29_map_array",
    "Blend2D.Matrix.C29_type_sound",
    "Blend2D.Matrix.C29_degenerate_matrix_classified_affine",
    "Blend2D.Matrix.C29_map_box_contains",
    "Blend2D.Matrix.C29_map_box_tight",
    "Blend2D.Matrix.C29_map_box_scaled_swapped"
   ],
   "note": "Everything is proved except reset_to_rotation about a point, which the code gets wrong (counterexample theorem)."
  },
  {
   "property": "C30",
   "status": "proved",
   "theorems": [
    "Blend2D.ArenaTree.C30_ordered_set",
    "Blend2D.ArenaTree.C30_red_black",
    "Blend2D.ArenaTree.C30_height",
    "Blend2D.ArenaTree.C30_get"
   ],
   "note": ""
  },
  {
   "property": "C31",
   "status": "partial",
   "theorems": [
    "Blend2D.SaveRestore.C31_stroke_join_leaks_out_of_restore",
    "Blend2D.SaveRestore.C31_pixel_clip_changes_after_restore",
    "Blend2D.SaveRestore.C31_swap_styles_releases_saved_style",
    "Blend2D.SaveRestore.C31_swap_styles_disables_styles",
    "Blend2D.SaveRestore.C31_invalid_slot_writes_out_of_bounds",
    "Blend2D.SaveRestore.C31_restore_clipping_keeps_clip_mode",
    "Blend2D.SaveRestore.C31_restore_returns_saved_state_partial",
    "Blend2D.SaveRestore.C31_restore_cookie_returns_saved_state_partial",
    "Blend2D.SaveRestore.C31_no_undefined_behaviour_partial",
    "Blend2D.SaveRestore.C31_refused_call_changes_nothing_partial",
    "Blend2D.SaveRestore.C31_cookie_refused_once_restored",
    "Blend2D.SaveRestore.C31_foreign_cookie_refused",
    "Blend2D.SaveRestore.C31_cookies_differ",
    "Blend2D.SaveRestore.C31_plain_restore_needs_plain_save",
    "Blend2D.SaveRestore.C31_saved_state_count",
    "Blend2D.SaveRestore.C31_restore_returns_pixel_clip_partial"
   ],
   "note": "Covered calls are listed in Legal; each excluded call has a counterexample theorem. The clip box in pixels is restored when it was derived from the user's clip box."
  },
  {
   "property": "C32",
   "status": "proved",
   "theorems": [
    "Blend2D.Pattern.C32_affine_in_image",
    "Blend2D.Pattern.C32_affine",
    "Blend2D.Pattern.C32_affine_blend_range",
    "Blend2D.Pattern.C32_extend_modes",
    "Blend2D.Pattern.C32_aligned",
    "Blend2D.Pattern.C32_nearest",
    "Blend2D.Pattern.C32_bilinear",
    "Blend2D.Pattern.C32_bilinear_range",
    "Blend2D.Pattern.C32_in_image"
   ],
   "note": "Reference (portable) fetchers; doubles are exact rationals in the set-up of affine patterns."
  },
  {
   "property": "C33",
   "status": "partial",
   "theorems": [
    "Blend2D.IntOps.C33_add_unsigned",
    "Blend2D.IntOps.C33_sub_unsigned",
    "Blend2D.IntOps.C33_add_signed",
    "Blend2D.IntOps.C33_sub_signed",
    "Blend2D.IntOps.C33_mul_unsigned",
    "Blend2D.IntOps.C33_mul_unsigned_wide",
    "Blend2D.IntOps.C33_mul_signed",
    "Blend2D.IntOps.C33_mul_signed64_partial",
    "Blend2D.IntOps.C33_mul_signed64_counterexample",
    "Blend2D.IntOps.C33_add_saturate",
    "Blend2D.IntOps.C33_mul_saturate_wide",
    "Blend2D.IntOps.C33_mul_saturate",
    "Blend2D.IntOps.C33_sub_saturate",
    "Blend2D.IntOps.C33_align_down",
    "Blend2D.IntOps.C33_align_up",
    "Blend2D.IntOps.C33_align_up_wraps",
    "Blend2D.IntOps.C33_align_up_diff",
    "Blend2D.IntOps.C33_is_power_of_2",
    "Blend2D.IntOps.C33_clamp_signed_partial",
    "Blend2D.IntOps.C33_clamp_signed_counterexample",
    "Blend2D.IntOps.C33_clamp_unsigned",
    "Blend2D.IntOps.C33_pmod_unsigned",
    "Blend2D.IntOps.C33_pmod_signed_counterexample",
    "Blend2D.IntOps.C33_align_up_power_of_2"
   ],
   "note": "Signed 64-bit multiplication, signed clamp and signed pmod are wrong for some operands (counterexample theorems); everything else is proved for all operands."
  },
  {
   "property": "C34",
   "status": "proved",
   "theorems": [
    "Blend2D.List2.C34_list_refines_sequence",
    "Blend2D.List2.C34_operations_succeed"
   ],
   "note": ""
  },
  {
   "property": "C35",
   "status": "partial",
   "theorems": [
    "Blend2D.Deflate.C35_decoder_safe",
    "Blend2D.Deflate.C35_decoder_terminates",
    "Blend2D.Deflate.C35_decoder_sound_partial",
    "Blend2D.Deflate.C35_decoder_complete_partial",
    "Blend2D.Deflate.C35_stored_after_compressed_counterexample",
    "Blend2D.Deflate.C35_split_counterexample",
    "Blend2D.Deflate.C35_litlen_table_built",
    "Blend2D.Deflate.C35_offset_table_built",
    "Blend2D.Deflate.C35_precode_table_built",
    "Blend2D.Deflate.C35_complete_code",
    "Blend2D.Deflate.C35_litlen_lookup",
    "Blend2D.Deflate.C35_litlen_lookup_invalid",
    "Blend2D.Deflate.C35_offset_lookup",
    "Blend2D.Deflate.C35_offset_lookup_invalid",
    "Blend2D.Deflate.C35_precode_lookup",
    "Blend2D.Deflate.C35_fast_offset_lookup_partial",
    "Blend2D.Deflate.C35_fast_offset_counterexample",
    "Blend2D.Deflate.C35_fast_static_offset_counterexample"
   ],
   "note": "Decode tables, lookups and the whole state machine of decode with its two tail loops, for any input split into any chunks: memory safe and terminating for every input; the result is the one of a separate specification of inflate for every stream without a stored block after a compressed one and without codewords for offset symbols 30/31 (counterexample theorems show both are decoded wrongly). The fast loop is not modelled (chunks of less than 176 bytes never enter it); it reads outside the offset table on invalid offsets (counterexample)."
  },
  {
   "property": "C36",
   "status": "partial",
   "theorems": [
    "Blend2D.BitSet.C36_bit_histories",
    "Blend2D.BitSet.C36_histories_partial",
    "Blend2D.BitSet.C36_has_bits_in_range_partial",
    "Blend2D.BitSet.C36_invalid",
    "Blend2D.BitSet.C36_add_range_overflow",
    "Blend2D.BitSet.C36_add_range_loses_bits",
    "Blend2D.BitSet.C36_clear_range_cardinality",
    "Blend2D.BitSet.C36_clear_range_overflow",
    "Blend2D.BitSet.C36_assign_range_overflow",
    "Blend2D.BitSet.C36_get_range_empty",
    "Blend2D.BitSet.C36_clear_bit_last_word"
   ],
   "note": "Single numbers, clear, cardinality and the queries: proved for every history. Range operations: proved for every history of calls outside of the defects exhibited by the C36 counterexample theorems (Addable, Clearable, room for two segments)."
  },
  {
   "property": "C37",
   "status": "partial",
   "theorems": [
    "Blend2D.Variation.C37_calls_partial",
    "Blend2D.Variation.C37_view",
    "Blend2D.Variation.C37_lookup",
    "Blend2D.Variation.C37_equals_partial",
    "Blend2D.Variation.C37_no_leak",
    "Blend2D.Variation.C37_negative_zero_counterexample",
    "Blend2D.Variation.C37_nan_equality_counterexample"
   ],
   "note": "Every history of calls on any number of shared objects; set_value with negative zero is excluded and equals of settings with NaN values is one-directional (counterexample theorems)."
  },
  {
   "property": "C38",
   "status": "proved",
   "theorems": [
    "Blend2D.Pixel.C38_cvt_0555",
    "Blend2D.Pixel.C38_cvt_0565",
    "Blend2D.Pixel.C38_cvt_4444",
    "Blend2D.Pixel.C38_expand_exact"
   ],
   "note": ""
  },
  {
   "property": "C39",
   "status": "partial",
   "theorems": [
    "Blend2D.Publish.C39_published_completely_once_partial",
    "Blend2D.Publish.C39_stable",
    "Blend2D.Publish.C39_torn"
   ],
   "note": "Proved for the stores in program order; they are plain stores, and if the compiler exchanges them a reader can see a torn object (counterexample theorem)."
  },
  {
   "property": "C40",
   "status": "partial",
   "theorems": [
    "Blend2D.Thread.C40_futex_items",
    "Blend2D.Thread.C40_portable_items",
    "Blend2D.Thread.C40_futex_once",
    "Blend2D.Thread.C40_portable_once",
    "Blend2D.Thread.C40_futex_busy",
    "Blend2D.Thread.C40_portable_busy",
    "Blend2D.Thread.C40_futex_no_lost_wakeup",
    "Blend2D.Thread.C40_portable_no_lost_wakeup",
    "Blend2D.Thread.C40_futex_progress",
    "Blend2D.Thread.C40_portable_progress",
    "Blend2D.Thread.C40_futex_quits",
    "Blend2D.Thread.C40_portable_quits",
    "Blend2D.Thread.C40_portable_all_executed",
    "Blend2D.Thread.C40_futex_all_executed_partial",
    "Blend2D.Thread.C40_futex_lost_item"
   ],
   "note": "Execution before exit is proved for the condition variable version without restriction and for the futex version when quit does not overlap with a run that is handing over its item; otherwise the item can be lost (counterexample theorem). Sequentially consistent interleavings."
  },
  {
   "property": "C41",
   "status": "proved",
   "theorems": [
    "Blend2D.BitOps.C41_single_bit",
    "Blend2D.BitOps.C41_range",
    "Blend2D.BitOps.C41_first_last_bit",
    "Blend2D.BitOps.C41_iterator",
    "Blend2D.BitOps.C41_flip_iterator"
   ],
   "note": ""
  },
  {
   "property": "C42",
   "status": "partial",
   "theorems": [
    "Blend2D.SaveRestore.C42_stroke_job_gets_stale_approximation_options",
    "Blend2D.SaveRestore.C42_fill_job_gets_current_state",
    "Blend2D.SaveRestore.C42_stroke_job_gets_current_state_partial"
   ],
   "note": "Fill jobs complete; stroke jobs without approximation options, which the code does not keep current (counterexample theorem)."
  },
  {
   "property": "C43",
   "status": "partial",
   "theorems": [
    "Blend2D.FontTag.C43_lookup",
    "Blend2D.FontTag.C43_valid_tag",
    "Blend2D.FontTag.C43_get_tags",
    "Blend2D.FontTag.C43_has_tag_partial",
    "Blend2D.FontTag.C43_has_unknown_tag_counterexample"
   ],
   "note": "lookup, validity and the list of tags are proved; has_tag is wrong for tags outside the dictionary: C43_has_unknown_tag_counterexample. The language dictionary (unused by the API) is not modelled."
  },
  {
   "property": "C44",
   "status": "proved",
   "theorems": [
    "Blend2D.GradLut.C44_table32",
    "Blend2D.GradLut.C44_stop_colour",
    "Blend2D.GradLut.C44_table64",
    "Blend2D.GradLut.C44_entry",
    "Blend2D.GradLut.C44_stop_exact",
    "Blend2D.GradLut.C44_opaque",
    "Blend2D.GradLut.C44_premultiplied"
   ],
   "note": "portable implementations; table sizes up to 2048 (32-bit) and 1024 (64-bit), which covers the sizes the renderer asks for; 64-bit components are within 17/32 of the exact value"
  },
  {
   "property": "C45",
   "status": "partial",
   "theorems": [
    "Blend2D.CMap.C45_safe",
    "Blend2D.CMap.C45_mapping",
    "Blend2D.CMap.C45_mapping_format4_partial",
    "Blend2D.CMap.C45_unique",
    "Blend2D.CMap.C45_validate_partial",
    "Blend2D.CMap.C45_coverage_arrays",
    "Blend2D.CMap.C45_coverage_segments",
    "Blend2D.CMap.C45_coverage_groups",
    "Blend2D.CMap.C45_coverage_complete",
    "Blend2D.CMap.C45_choice",
    "Blend2D.CMap.C45_init_partial",
    "Blend2D.CMap.C45_format4_zero_entry",
    "Blend2D.CMap.C45_empty_groups_read_outside",
    "Blend2D.CMap.C45_format6_rejected"
   ],
   "note": "partial: format 4 glyph array entries that are zero get idDelta added (C45_format4_zero_entry); format 12/13 without groups is read outside of the table during validation (C45_empty_groups_read_outside)"
  },
  {
   "property": "C46",
   "status": "partial",
   "theorems": [
    "Blend2D.Path.C46_history_partial",
    "Blend2D.Path.C46_calls_partial",
    "Blend2D.Path.C46_copy",
    "Blend2D.Path.C46_valid_partial",
    "Blend2D.Path.C46_bounding_box_partial",
    "Blend2D.Path.C46_smallest_box_partial",
    "Blend2D.Path.C46_control_box_partial",
    "Blend2D.Path.C46_figure_range_partial",
    "Blend2D.Path.C46_last_vertex",
    "Blend2D.Path.C46_geometry_valid",
    "Blend2D.Path.C46_counterexample_polygon_ccw",
    "Blend2D.Path.C46_counterexample_boxes_ccw",
    "Blend2D.Path.C46_counterexample_reserve",
    "Blend2D.Path.C46_counterexample_clear",
    "Blend2D.Path.C46_counterexample_conic_control_box",
    "Blend2D.Path.C46_counterexample_figure_range",
    "Blend2D.Path.C46_counterexample_fit_to",
    "Blend2D.Path.C46_counterexample_translate_conic",
    "Blend2D.Path.C46_counterexample_quad_end",
    "Blend2D.Path.C46_ellipse",
    "Blend2D.Path.C46_circle",
    "Blend2D.Path.C46_round_rect",
    "Blend2D.Path.C46_flags",
    "Blend2D.Path.C46_fit_to_partial"
   ],
   "note": "partial: histories exclude polygons added counter-clockwise, lists of boxes and rectangles added counter-clockwise, and reserving more than 2^58 items (counterexample theorems); the boxes of a path are not proved for empty paths (clear keeps stale boxes, counterexample) and the bounding box only by end vertices for cubics and conics, whose extrema functions are parameters; exact arithmetic with NaN, no rounding and no infinities; fit_to for lines and quadratic curves; C46_copy, C46_flags, C46_ellipse, C46_circle, C46_round_rect, C46_last_vertex and C46_geometry_valid are proved in full"
  },
  {
   "property": "C47",
   "status": "proved",
   "theorems": [
    "Blend2D.Fill.C47_scanline",
    "Blend2D.Fill.C47_fill",
    "Blend2D.Fill.C47_mask_nonzero",
    "Blend2D.Fill.C47_mask_evenodd",
    "Blend2D.Fill.C47_mask_range"
   ],
   "note": "the reference (portable) fill loop; for every row that satisfies Ready (what the rasterizer guarantees: closed shapes, marks cover the cells, buffers as large as the renderer makes them); the composition operator is a parameter with mask 0 = identity and mask 255 = unmasked, which C11 proves for the operators of the reference pipeline; 64-bit words"
  },
  {
   "property": "C48",
   "status": "partial",
   "theorems": [
    "Blend2D.FillMask.C48_box",
    "Blend2D.FillMask.C48_box_bands",
    "Blend2D.FillMask.C48_mask",
    "Blend2D.FillMask.C48_mask_band_partial",
    "Blend2D.FillMask.C48_counterexample_mask_alpha",
    "Blend2D.FillMask.C48_counterexample_mask_gap"
   ],
   "note": "reference (portable) pipelines; boxes: complete, synchronous and in bands; mask images: complete for synchronous contexts; in asynchronous contexts a global alpha below 255 is ignored by the code (counterexample theorem), the theorem is for alpha 255; the composition operator is a parameter as in C47"
  },
  {
   "property": "C49",
   "status": "partial",
   "theorems": [
    "Blend2D.Raster.C49_line_partial",
    "Blend2D.Raster.C49_bands_partial",
    "Blend2D.Raster.C49_prepare",
    "Blend2D.Raster.C49_bounds_partial",
    "Blend2D.Raster.C49_left",
    "Blend2D.Raster.C49_right",
    "Blend2D.Raster.C49_round",
    "Blend2D.Raster.C49_glitch_diagonal",
    "Blend2D.Raster.C49_glitch"
   ],
   "note": "Edges that pass a pixel corner and are one or two units steeper than a diagonal (Glitch) are painted wrongly by the code (C49_glitch, C49_glitch_diagonal); everything else is proved for every edge, band sequence and skipped scanlines. Cells are integers in the model (32-bit words in the code)."
  },
  {
   "property": "C50",
   "status": "partial",
   "theorems": [
    "Blend2D.Draw.C50_bit_fill",
    "Blend2D.Draw.C50_bit_set",
    "Blend2D.Draw.C50_fill_partial"
   ],
   "note": "Lines that the rasterizer draws wrongly (C49_glitch) are excluded, and the accumulated coverage has to fit the 32-bit cells (fewer than 2^13 full-height edges). That edges come from a closed outline is a hypothesis (the edge builder is not modelled)."
  },
  {
   "property": "C51",
   "status": "partial",
   "theorems": [
    "Blend2D.Async.C51_any_moment_partial",
    "Blend2D.Async.C51_batch_partial",
    "Blend2D.Async.C51_same_image_partial",
    "Blend2D.Async.C51_quantized"
   ],
   "note": "Any number of workers in any order of turns give the image of the single-threaded context. Partial: lines that C49 excludes (drawn wrongly by the rasterizer) are excluded, and the summed coverage must fit the 32-bit cells."
  },
  {
   "property": "C52",
   "status": "partial",
   "theorems": [
    "Blend2D.PixConv.C52_indexed_to_prgb32_partial",
    "Blend2D.PixConv.C52_indexed_to_xrgb32",
    "Blend2D.PixConv.C52_to_prgb32_partial",
    "Blend2D.PixConv.C52_to_xrgb32_partial",
    "Blend2D.PixConv.C52_from_native_partial",
    "Blend2D.PixConv.C52_roundtrip_partial",
    "Blend2D.PixConv.C52_byte_swap_counterexample",
    "Blend2D.PixConv.C52_alpha_16_counterexample",
    "Blend2D.PixConv.C52_two_formats_counterexample",
    "Blend2D.PixConv.C52_luminance_counterexample",
    "Blend2D.PixConv.C52_opaque_counterexample",
    "Blend2D.PixConv.C52_argb32_counterexample",
    "Blend2D.PixConv.C52_one_bit_counterexample"
   ],
   "note": "Every accepted format to PRGB32 and XRGB32, RGB formats from PRGB32 and XRGB32, the way there and back, and palettes to PRGB32. Partial: seven kinds of formats for which the code is wrong are excluded and exhibited; rows with a gap and the vectorised functions are not modelled."
  },
  {
   "property": "C53",
   "status": "partial",
   "theorems": [
    "Blend2D.Bmp.C53_rle",
    "Blend2D.Bmp.C53_rle_complete",
    "Blend2D.Bmp.C53_rle_safe_partial",
    "Blend2D.Bmp.C53_rle_move_counterexample",
    "Blend2D.Bmp.C53_rle_long_run_counterexample",
    "Blend2D.Bmp.C53_decode_size",
    "Blend2D.Bmp.C53_decode_direct",
    "Blend2D.Bmp.C53_decode_indexed",
    "Blend2D.Bmp.C53_decode_rle",
    "Blend2D.Bmp.C53_decode_safe_partial",
    "Blend2D.Bmp.C53_roundtrip_prgb32",
    "Blend2D.Bmp.C53_roundtrip_xrgb32",
    "Blend2D.Bmp.C53_roundtrip_a8",
    "Blend2D.Bmp.C53_encode_overflow_counterexample"
   ],
   "note": "The whole decoder and encoder of codec/bmpcodec.cpp, down to bytes. Partial: run-length encoded files can write one row below the image (C53_rle_move_counterexample) and a too long absolute run desynchronises the decoder (C53_rle_long_run_counterexample); encoding an image whose file needs 4 GB or more writes outside of the buffer (C53_encode_overflow_counterexample). Everything else is proved without restriction."
  },
  {
   "property": "C54",
   "status": "partial",
   "theorems": [
    "Blend2D.Kern.C54_windows_partial",
    "Blend2D.Kern.C54_apple_partial",
    "Blend2D.Kern.C54_load_safe",
    "Blend2D.Kern.C54_kern_safe_partial",
    "Blend2D.Kern.C54_format2_counterexample",
    "Blend2D.Kern.C54_cross_counterexample",
    "Blend2D.Kern.C54_repeated_counterexample",
    "Blend2D.Kern.C54_placement_counterexample"
   ],
   "note": "Loading and application of 'kern' tables down to bytes; tables of pairs of both header kinds are proved completely, sorted or not, for every text. Partial: sub-tables of formats 2 and 3 are applied as if they were pairs, outside of the table (C54_format2_counterexample), values across the line move glyphs along it (C54_cross_counterexample), repeated pairs of unsorted tables can count twice (C54_repeated_counterexample), and existing placements are turned into advances (C54_placement_counterexample)."
  },
  {
   "property": "C55",
   "status": "partial",
   "theorems": [
    "Blend2D.GlyphBuffer.C55_invalid_text_counterexample",
    "Blend2D.GlyphBuffer.C55_set_glyphs_counterexample",
    "Blend2D.GlyphBuffer.C55_placement_counterexample",
    "Blend2D.GlyphBuffer.C55_kerning_counterexample",
    "Blend2D.GlyphBuffer.C55_history_partial",
    "Blend2D.GlyphBuffer.C55_text_partial",
    "Blend2D.GlyphBuffer.C55_well_formed",
    "Blend2D.GlyphBuffer.C55_terminated",
    "Blend2D.GlyphBuffer.C55_glyphs_from_struct",
    "Blend2D.GlyphBuffer.C55_set_glyphs_partial",
    "Blend2D.GlyphBuffer.C55_map",
    "Blend2D.GlyphBuffer.C55_position",
    "Blend2D.GlyphBuffer.C55_shape",
    "Blend2D.GlyphBuffer.C55_clear"
   ],
   "note": "Histories of set_text, set_glyphs, set_glyphs_from_struct, clear, reset, map, position and shape with failing allocations; the decoding is specified on the encodings of C08 and shown to be unique. Partial: the flag for invalid text is always lost (C55_invalid_text_counterexample), set_glyphs steps by two bytes through four-byte ids (C55_set_glyphs_counterexample), placements of earlier glyphs survive a longer text (C55_placement_counterexample), so that applying kerning writes outside (C55_kerning_counterexample). Fonts with GSUB or GPOS tables are not modelled."
  },
  {
   "property": "C56",
   "status": "partial",
   "theorems": [
    "Blend2D.Glyf.C56_start_counterexample",
    "Blend2D.Glyf.C56_garbage_counterexample",
    "Blend2D.Glyf.C56_points_counterexample",
    "Blend2D.Glyf.C56_bounds",
    "Blend2D.Glyf.C56_outline_safe_partial",
    "Blend2D.Glyf.C56_outline_missing",
    "Blend2D.Glyf.C56_outline_partial"
   ],
   "note": "Any bytes in loca and glyf for safety, termination and bounds; simple and compound glyphs (nested up to 15 levels) for the outline. Partial: the byte count of the x coordinates is kept in 16 bits, so a glyph with 32768 points is read outside of the table (C56_points_counterexample); a contour that starts and ends off the curve is closed at a wrong point (C56_start_counterexample); an invalid contour leaves vertices in the path that were never written (C56_garbage_counterexample). Exact rational arithmetic; components placed by point numbers, composites that fail and the vectorized decoder are not specified."
  },
  {
   "property": "C57",
   "status": "partial",
   "theorems": [
    "Blend2D.FaceMetrics.C57_text_counterexample",
    "Blend2D.FaceMetrics.C57_face",
    "Blend2D.FaceMetrics.C57_face_rejected",
    "Blend2D.FaceMetrics.C57_advances",
    "Blend2D.FaceMetrics.C57_font",
    "Blend2D.FaceMetrics.C57_text_partial"
   ],
   "note": "Faces, advances and font metrics are proved for all tables. The metrics of a text need a font that has advances: bl_font_position_glyphs ignores that get_glyph_advances failed and placements that were never written are read (C57_text_counterexample). Layout is a parameter, numbers are exact."
  },
  {
   "property": "C58",
   "status": "partial",
   "theorems": [
    "Blend2D.FontData.C58_unknown_counterexample",
    "Blend2D.FontData.C58_twice_counterexample",
    "Blend2D.FontData.C58_count_counterexample",
    "Blend2D.FontData.C58_create",
    "Blend2D.FontData.C58_tags",
    "Blend2D.FontData.C58_safe",
    "Blend2D.FontData.C58_tables_partial",
    "Blend2D.FontData.C58_table"
   ],
   "note": "Creation, the list of tables, safety and requests for one or two tables are proved for all bytes. Requests for 3 to 254 tables need different tags of known tables and a directory without repeated tags: otherwise an unknown tag makes all tables missing (C58_unknown_counterexample), a repeated tag is found once (C58_twice_counterexample), and the number of tables can be too large (C58_count_counterexample)."
  },
  {
   "property": "C59",
   "status": "partial",
   "theorems": [
    "Blend2D.VarNum.C59_equals_bool",
    "Blend2D.VarNum.C59_equals_int64_partial",
    "Blend2D.VarNum.C59_equals_uint64_partial",
    "Blend2D.VarNum.C59_equals_double_partial",
    "Blend2D.VarNum.C59_equals_partial",
    "Blend2D.VarNum.C59_string_counterexample",
    "Blend2D.VarNum.C59_int64_counterexample",
    "Blend2D.VarNum.C59_double_counterexample",
    "Blend2D.VarNum.C59_equals_counterexample",
    "Blend2D.VarNum.C59_bool_partial",
    "Blend2D.VarNum.C59_int32",
    "Blend2D.VarNum.C59_uint32",
    "Blend2D.VarNum.C59_int64_partial",
    "Blend2D.VarNum.C59_uint64_partial",
    "Blend2D.VarNum.C59_double_partial",
    "Blend2D.VarNum.C59_double_same"
   ],
   "note": "Conversions to int32 and uint32 are proved for all values. Partial: bl_var_equals compares the first double with itself, so that all doubles are equal (C59_equals_counterexample); 2^63 and 2^64 pass the range checks of int64_t and uint64_t and their conversion is undefined (C59_int64_counterexample), as is the check of conversions of the largest integers to double (C59_double_counterexample); converting a string to a boolean writes nothing (C59_string_counterexample). Colours are not modelled."
  },
  {
   "property": "C60",
   "status": "partial",
   "theorems": [
    "Blend2D.NameTable.C60_wws_counterexample",
    "Blend2D.NameTable.C60_text",
    "Blend2D.NameTable.C60_unique",
    "Blend2D.NameTable.C60_names",
    "Blend2D.NameTable.C60_names_partial",
    "Blend2D.NameTable.C60_rejected",
    "Blend2D.NameTable.C60_safe"
   ],
   "note": "Acceptance, safety, decoding and selection are proved for all tables, with the order in which the code prefers the families (C60_names). Partial: a family or subfamily of the model of weight, width and slope replaces the basic one when there is no typographic one (C60_wws_counterexample), although the code says it is used only if there is no other choice; C60_names_partial is for fonts that do not have both."
  },
  {
   "property": "C61",
   "status": "partial",
   "theorems": [
    "Blend2D.Arena.C61_size_counterexample",
    "Blend2D.Arena.C61_clear_counterexample",
    "Blend2D.Arena.C61_restore_counterexample",
    "Blend2D.Arena.C61_ensure_counterexample",
    "Blend2D.Arena.C61_pool_partial",
    "Blend2D.Arena.C61_pool_new_partial",
    "Blend2D.Arena.C61_alloc_partial",
    "Blend2D.Arena.C61_live_partial",
    "Blend2D.Arena.C61_apart_partial",
    "Blend2D.Arena.C61_blocks_partial",
    "Blend2D.Arena.C61_fails_partial",
    "Blend2D.Arena.C61_reset_partial",
    "Blend2D.Arena.C61_clear_partial",
    "Blend2D.Arena.C61_static_partial",
    "Blend2D.Arena.C61_ensure_partial",
    "Blend2D.Arena.C61_restore_partial"
   ],
   "note": "Proved for all histories of alloc, ensure, save and restore, clear and reset with alignments up to 16, block alignments below 64 and sizes that are at most 1900 or multiples of 16. Partial: after a larger size that is no multiple of 16 memory behind the block can be returned (C61_size_counterexample); with block alignments of 64 clearing an empty arena is wrong (C61_clear_counterexample); a state saved when the block is exactly full is restored to the begin of the first block (C61_restore_counterexample); ensure ignores its size when it adds a block (C61_ensure_counterexample), so it is proved for at most 1900 bytes (C61_ensure_partial)."
  }
 ]
}