{"id": "C01", "title": "QOI write/read round trip", "statement": "Writing an image with the QOI encoder and reading the produced bytes with the QOI decoder gives back an image with the same size and the same pixels (XRGB32: colour bytes with opaque alpha; PRGB32: every validly premultiplied pixel; A8: grey opaque pixels).", "quantifier": "every image size and every pixel content", "why_tests_cant": "pixel sequences are unbounded and the codec is a state machine over a 64-entry history table, so any finite set of images leaves most table/run interactions unexercised", "anchors": [{"file": "blend2d/codec/qoicodec.cpp", "symbols": ["decode_qoi_data", "encodeQoiDataPRGB32", "encodeQoiDataXRGB32", "encodeQoiDataA8"]}]}
{"id": "C02", "title": "QOI decoder is memory safe on arbitrary bytes", "statement": "For any byte string given as QOI pixel data, the decoder never reads outside the input, never writes outside the image, terminates, and either reports a data error or has written every pixel of the image.", "quantifier": "every input byte string, width, height", "why_tests_cant": "the input space is all byte strings; a fuzzer only samples it", "anchors": [{"file": "blend2d/codec/qoicodec.cpp", "symbols": ["decode_qoi_data"]}]}
{"id": "C03", "title": "QOI encoder never overruns its output buffer", "statement": "The worst-case size the encoder reserves is an upper bound for the bytes it writes.", "quantifier": "every image and pixel format", "why_tests_cant": "worst case depends on pixel content", "anchors": [{"file": "blend2d/codec/qoicodec.cpp", "symbols": ["encodeQoiDataPRGB32", "encoder_write_frame_impl"]}]}
{"id": "C04", "title": "Adler-32 is the RFC 1950 checksum and is incremental", "statement": "adler32 over any data equals the RFC 1950 definition; feeding the data in any number of pieces gives the same result; no 32-bit intermediate overflows.", "quantifier": "every byte string and every split of it", "why_tests_cant": "the chunked modulo reduction only matters for long inputs with large bytes; overflow freedom is a worst-case bound", "anchors": [{"file": "blend2d/compression/checksum.cpp", "symbols": ["adler32_update_ref"]}]}
{"id": "C05", "title": "CRC-32 equals the polynomial definition and is incremental", "statement": "crc32 computed with the lookup table equals bitwise division by the reflected polynomial 0xEDB88320, for any data and any split of it.", "quantifier": "every byte string and every split", "why_tests_cant": "byte strings are unbounded", "anchors": [{"file": "blend2d/compression/checksum.cpp", "symbols": ["crc32_table", "crc32_update_ref"]}, {"file": "blend2d/compression/checksum_p.h", "symbols": ["crc32_update_byte"]}]}
{"id": "C06", "title": "PNG filter inversion restores the scanlines", "statement": "Applying the decoder's inverse filter to data filtered as the PNG standard prescribes restores the original scanlines, for every choice of filter type per row and every bytes-per-pixel, and the Paeth predictor selects what the standard selects.", "quantifier": "all scanlines, filter types, bpp, heights", "why_tests_cant": "three-byte-context predictor over arbitrary sequences", "anchors": [{"file": "blend2d/codec/pngops.cpp", "symbols": ["inverse_filter_impl"]}, {"file": "blend2d/codec/pngops_p.h", "symbols": ["apply_paeth_filter", "apply_sum_filter", "apply_avg_filter"]}]}
{"id": "C07", "title": "Text conversion is faithful", "statement": "Validating accepts exactly well-formed text of the encoding; converting UTF-8/16/32 to one another preserves the sequence of code points; converting back returns the original text.", "quantifier": "every code-unit sequence", "why_tests_cant": "code-unit sequences are unbounded and errors occur at arbitrary cut points", "anchors": [{"file": "blend2d/unicode/unicode_p.h", "symbols": ["Utf8Reader", "Utf16Reader", "Utf32Reader"]}, {"file": "blend2d/unicode/unicode.cpp", "symbols": ["bl_validate_unicode", "convert_unicode"]}]}
{"id": "C08", "title": "Text readers and writers never touch memory outside the buffers", "statement": "UTF-8 and UTF-16 readers never read past the end of the text and always make progress; writers never write past the end of the destination and report BL_ERROR_NO_SPACE_LEFT instead.", "quantifier": "every byte/unit sequence and destination capacity", "why_tests_cant": "truncated sequences at every cut position of every text", "anchors": [{"file": "blend2d/unicode/unicode_p.h", "symbols": ["Utf8Reader::next", "Utf16Reader::next", "Utf8Writer", "Utf16Writer"]}]}
{"id": "C09", "title": "8-bit and 16-bit fixed-point division is exactly rounded", "statement": "The fast division by 255 (and 65535) used for every colour multiplication returns the exactly rounded quotient over the full product domain, and 0 and full alpha are exact neutral elements.", "quantifier": "every product of two components", "why_tests_cant": "exhaustive domain of the 16-bit channel version has 2^32 points", "anchors": [{"file": "blend2d/pixelops/scalar_p.h", "symbols": ["udiv255", "udiv65535"]}, {"file": "blend2d/pipeline/reference/pixelgeneric_p.h", "symbols": ["div255"]}]}
{"id": "C10", "title": "Premultiplied pixels survive demultiply/premultiply", "statement": "Converting a valid premultiplied pixel to non-premultiplied and back returns the same pixel; results are always valid (colour <= alpha).", "quantifier": "every pixel", "why_tests_cant": "pixel domain is 2^32", "anchors": [{"file": "blend2d/pixelops/scalar_p.h", "symbols": ["cvt_prgb32_8888_from_argb32_8888", "cvt_argb32_8888_from_prgb32_8888"]}]}
{"id": "C11", "title": "Reference compositing equals the per-channel formula and stays premultiplied", "statement": "SrcCopy, SrcOver and Plus (with and without mask) performed on packed pixels equal the documented formula applied independently to each channel; no carry leaks between channels; valid premultiplied inputs give a valid premultiplied output; mask 0 keeps the destination and mask 255 equals the unmasked operation.", "quantifier": "every destination, source pixel and mask", "why_tests_cant": "packed arithmetic over 2^72 combinations", "anchors": [{"file": "blend2d/pipeline/reference/compopgeneric_p.h", "symbols": ["CompOp_SrcOver_Op", "CompOp_SrcCopy_Op", "CompOp_Plus_Op"]}, {"file": "blend2d/pipeline/reference/pixelgeneric_p.h", "symbols": ["U32_8888", "P32_8888"]}]}
{"id": "C12", "title": "Composition operator simplification preserves the result", "statement": "When the engine replaces a composition operator / destination format / source format by a simpler one, the pixel it would produce is unchanged.", "quantifier": "every operator, format combination and pixel value (exact arithmetic)", "why_tests_cant": "the table has about a thousand entries each quantified over all pixel values", "anchors": [{"file": "blend2d/core/compopsimplifyimpl_p.h", "symbols": ["CompOpSimplifyInfoImpl"]}]}
{"id": "C13", "title": "Sorting sorts", "statement": "quick sort and insertion sort used for gradient stops, tags and edges leave a sorted permutation of the input and never index outside the array or overflow their work stack.", "quantifier": "every array and every comparator that is a total preorder", "why_tests_cant": "inputs are unbounded; adversarial orders drive partition boundaries", "anchors": [{"file": "blend2d/support/algorithm_p.h", "symbols": ["quick_sort", "insertion_sort"]}]}
{"id": "C14", "title": "Searching finds", "statement": "lower_bound / binary_search / closest first/last return exactly the index their documentation states and never index outside the array.", "quantifier": "every sorted array and key", "why_tests_cant": "boundary behaviour for all lengths", "anchors": [{"file": "blend2d/support/algorithm_p.h", "symbols": ["lower_bound", "binary_search", "binary_search_closest_first", "binary_search_closest_last"]}]}
{"id": "C15", "title": "BLArray behaves as a sequence", "statement": "After any sequence of append/insert/remove/replace/assign/resize/clear operations, in any sharing situation, the array holds what the same operations on a mathematical list give, and no operation writes outside the allocated storage.", "quantifier": "every history of operations, element counts, sharing patterns", "why_tests_cant": "histories are unbounded; capacity/immutability paths depend on the history", "anchors": [{"file": "blend2d/core/array.cpp", "symbols": ["bl_array_modify_op", "bl_array_insert_op", "bl_array_resize", "bl_array_assign_data", "bl_array_replace_data", "bl_array_remove_range", "bl_array_append_data", "bl_array_insert_data"]}]}
{"id": "C16", "title": "Copies are independent (copy on write)", "statement": "Assigning one object to another shares storage, but a later modification through one handle is never visible through another handle.", "quantifier": "every history of assignments and modifications over any number of handles", "why_tests_cant": "aliasing patterns are unbounded", "anchors": [{"file": "blend2d/core/object_p.h", "symbols": ["is_impl_mutable", "retain_instance", "deref_impl_and_test"]}, {"file": "blend2d/core/array.cpp", "symbols": ["bl_array_make_mutable", "bl_array_assign_weak"]}]}
{"id": "C17", "title": "Reference counting frees exactly once, never early", "statement": "Under any interleaving of retain/release by any number of threads that own their handles, shared storage is destroyed exactly once, after the last handle is gone, and never used afterwards.", "quantifier": "every schedule and number of threads", "why_tests_cant": "schedules cannot be enumerated by tests", "anchors": [{"file": "blend2d/core/object_p.h", "symbols": ["retain_impl", "deref_impl_and_test", "release_virtual_impl"]}]}
{"id": "C18", "title": "BLString behaves as a byte sequence and stays NUL terminated", "statement": "Assign/append/insert/remove/truncate/clear/search/compare agree with the operation on a mathematical byte list, whether the string is inline, dynamic or shared, and the byte after the last is always NUL.", "quantifier": "every history and content", "why_tests_cant": "inline/dynamic/shared transitions at every size", "anchors": [{"file": "blend2d/core/string.cpp", "symbols": ["bl_string_modify_op", "bl_string_insert_op", "bl_string_assign_data", "bl_string_remove_range", "bl_string_compare"]}]}
{"id": "C19", "title": "BLBitArray behaves as an array of booleans", "statement": "set/clear/fill/append/resize/count/intersects/subsumes agree with the mathematical bit sequence; bits beyond the size are never observable.", "quantifier": "every history, size, range", "why_tests_cant": "word-boundary arithmetic for all ranges", "anchors": [{"file": "blend2d/core/bitarray.cpp", "symbols": ["bl_bit_array_fill_range", "bl_bit_array_resize", "bl_bit_array_append_bit", "bl_bit_array_has_bits_in_range", "bl_bit_array_get_cardinality_in_range"]}, {"file": "blend2d/support/bitops_p.h", "symbols": ["ParametrizedBitOps"]}]}
{"id": "C20", "title": "Gradient stops are kept sorted with at most two stops per offset", "statement": "Whatever sequence of add/remove/replace/assign calls is made, the stop list is sorted by offset, has at most two stops per offset, and contains the stops the documentation says it contains.", "quantifier": "every history", "why_tests_cant": "histories unbounded", "anchors": [{"file": "blend2d/core/gradient.cpp", "symbols": ["bl_gradient_add_stop_rgba64", "bl_gradient_remove_stop_by_offset", "bl_gradient_replace_stop_rgba64", "copy_unsafe_stops", "bl_gradient_assign_stops"]}]}
{"id": "C21", "title": "Font feature settings behave as a tag->value map", "statement": "get_value after any history of set/remove returns the last value set for the tag, in both the packed and dynamic representation; has_value agrees with it; other tags are unaffected.", "quantifier": "every history, tag, value", "why_tests_cant": "packed bit-field interactions over all tag sets", "anchors": [{"file": "blend2d/core/fontfeaturesettings.cpp", "symbols": ["bl_font_feature_settings_set_value", "bl_font_feature_settings_get_value", "bl_font_feature_settings_has_value", "bl_font_feature_settings_remove_value"]}]}
{"id": "C22", "title": "Thread pool never hands one thread to two clients", "statement": "Over any history of acquire/release/cleanup, each pooled thread is owned by at most one client, counts match, and the number of live threads never exceeds the maximum.", "quantifier": "every history of calls", "why_tests_cant": "unbounded histories", "anchors": [{"file": "blend2d/threading/threadpool.cpp", "symbols": ["bl_thread_pool_acquire_threads_internal", "bl_thread_pool_release_threads_internal", "bl_thread_pool_cleanup"]}]}
{"id": "C23", "title": "Generated unique ids are unique", "statement": "On targets with 64-bit atomics, ids obtained by any threads in any interleaving are pairwise different and never zero.", "quantifier": "every schedule, number of threads and calls", "why_tests_cant": "schedules", "anchors": [{"file": "blend2d/threading/uniqueidgenerator.cpp", "symbols": ["generate_id", "GlobalState"]}]}
{"id": "C24", "title": "Asynchronous rendering executes every job and every band exactly once", "statement": "With any number of workers, each job of a batch is executed exactly once and each band is processed by exactly one worker.", "quantifier": "every number of jobs, bands, workers, every schedule", "why_tests_cant": "work distribution depends on the schedule", "anchors": [{"file": "blend2d/raster/workerproc.cpp", "symbols": ["process_jobs", "process_commands"]}]}
{"id": "C25", "title": "Worker synchronisation neither lets anyone pass early nor deadlocks", "statement": "No thread starts rendering bands before all jobs are finished; the caller does not return before all bands are finished; some step is always possible until everything is done.", "quantifier": "every schedule and number of threads", "why_tests_cant": "races", "anchors": [{"file": "blend2d/raster/workersynchronization.cpp", "symbols": ["WorkerSynchronization"]}, {"file": "blend2d/raster/workersynchronization_p.h", "symbols": ["WorkerSynchronization"]}]}
{"id": "C26", "title": "Zeroed-memory allocator never hands out overlapping memory", "statement": "Live allocations of the zero allocator are pairwise disjoint, inside their block, at least as large as requested, and all zero when handed out; releasing returns exactly the allocated range.", "quantifier": "every history of allocate/resize/release", "why_tests_cant": "histories", "anchors": [{"file": "blend2d/support/zeroallocator.cpp", "symbols": ["_alloc_internal", "_release_internal"]}]}
{"id": "C27", "title": "Hash table bucket index is in range and is the true remainder", "statement": "The reciprocal-multiplication bucket computation equals hash modulo bucket count for every 32-bit hash and every table size, so a stored node is found again.", "quantifier": "every hash, every prime of the table; every insert/remove history", "why_tests_cant": "2^32 x 129 combinations; histories", "anchors": [{"file": "blend2d/support/arenahashmap.cpp", "symbols": ["ArenaHashMapBase::_insert", "_rehash", "_remove"]}, {"file": "blend2d/support/arenahashmap_p.h", "symbols": ["_calc_mod"]}]}
{"id": "C28", "title": "Random generator never degenerates", "statement": "Whatever the seed, the generator state is never all-zero, so the stream never gets stuck at zero; two different states never step to the same state; doubles are in [0,1).", "quantifier": "every seed and number of steps", "why_tests_cant": "2^64 seeds, unbounded steps", "anchors": [{"file": "blend2d/core/random_p.h", "symbols": ["reset_seed", "next_uint64", "next_double"]}]}
{"id": "C29", "title": "Transform operations compose as documented", "statement": "Applying translate/scale/skew/rotate/transform (pre and post) to a matrix maps points as the documented composition; invert is a two-sided inverse when the determinant is non-zero; the type classification is sound.", "quantifier": "every matrix and point (exact arithmetic)", "why_tests_cant": "real-valued domain", "anchors": [{"file": "blend2d/core/matrix.cpp", "symbols": ["bl_matrix2d_apply_op", "bl_matrix2d_invert", "bl_matrix2d_map_pointd_array"]}, {"file": "blend2d/core/matrix_p.h", "symbols": ["multiply"]}]}
{"id": "C30", "title": "Tree container is an ordered set and stays balanced", "statement": "After any history of insert/remove the arena tree is a binary search tree with the same keys, red-black balanced (height <= 2*log2(n+1)).", "quantifier": "every history", "why_tests_cant": "unbounded histories", "anchors": [{"file": "blend2d/support/arenatree_p.h", "symbols": ["insert", "remove", "get"]}]}
{"id": "C31", "title": "Context save/restore restores everything", "statement": "After save, any sequence of state changes (including nested saves/restores), and the matching restore, the rendering context state equals the saved one; a cookie restores exactly down to its own save; restoring without a state or with a foreign or stale cookie fails and changes nothing.", "quantifier": "every well formed or ill formed history", "why_tests_cant": "lazy copy-on-first-change saving interacts with nesting", "anchors": [{"file": "blend2d/raster/rastercontext.cpp", "symbols": ["save_impl", "restore_impl", "get_num_states_to_restore", "on_before_user_transform_change"]}]}
{"id": "C32", "title": "Pattern fetch stays inside the image and follows the extend mode", "statement": "For pad/repeat/reflect the pixel fetched for any position is inside the source image and is the one prescribed by the extend mode, also after any number of advances.", "quantifier": "every position, image size, translation, number of advances", "why_tests_cant": "unbounded coordinates", "anchors": [{"file": "blend2d/pipeline/reference/fetchgeneric_p.h", "symbols": ["FetchPatternVertAAExtendCtxAny", "FetchPatternHorzExtendCtxPad", "FetchPatternHorzExtendCtxRepeat", "FetchPatternHorzExtendCtxRoR"]}]}
{"id": "C33", "title": "Overflow-checked arithmetic detects exactly the overflows", "statement": "add/sub/mul with overflow flag return the exact result when the flag stays clear and set the flag iff the exact result is not representable; saturating variants clamp; alignment helpers return the least aligned value not below the input.", "quantifier": "every pair of operands of each width", "why_tests_cant": "2^128 operand pairs", "anchors": [{"file": "blend2d/support/intops_p.h", "symbols": ["add_overflow", "sub_overflow", "mul_overflow", "uadd_saturate", "align_up"]}]}
{"id": "C34", "title": "Linked list container is a sequence", "statement": "Arena list operations (add/insert/unlink/pop) keep forward and backward traversal consistent and equal to the abstract sequence.", "quantifier": "every history", "why_tests_cant": "pointer structures over unbounded histories", "anchors": [{"file": "blend2d/support/arenalist_p.h", "symbols": ["ArenaList"]}]}
{"id": "C35", "title": "Deflate decoder is a correct, safe inverse", "statement": "Decoding any byte string never reads outside the input or writes outside the output; a stored-block or Huffman stream decodes to the data it encodes.", "quantifier": "every byte string", "why_tests_cant": "unbounded inputs", "anchors": [{"file": "blend2d/compression/deflatedecoder.cpp", "symbols": ["Decoder"]}, {"file": "blend2d/compression/deflateencoder.cpp", "symbols": ["Encoder"]}]}
{"id": "C36", "title": "BLBitSet behaves as a set of 32-bit integers", "statement": "After any history of adding and clearing single numbers and ranges, assigning a range, clearing everything and asking for the cardinality, whatever representation the set is in and whether it is shared or not, a number is reported as a member exactly when the mathematical set contains it; the cardinality, emptiness, the first and last member, the answers for ranges and the words returned by iteration are those of the mathematical set; invalid numbers and ranges are rejected and change nothing; no call accesses memory outside of the set.", "quantifier": "every history of calls, every representation and capacity, every 32-bit number", "why_tests_cant": "histories and segment layouts are unbounded and the failing combinations depend on block boundaries", "anchors": [{"file": "blend2d/core/bitset.cpp", "symbols": ["bl_bit_set_add_bit", "bl_bit_set_has_bit", "bl_bit_set_clear_bit", "bl_bit_set_add_range", "bl_bit_set_clear_range", "bl_bit_set_assign_range", "bl_bit_set_get_cardinality", "bl_bit_set_get_range", "bl_bit_set_has_bits_in_range"]}, {"file": "blend2d/core/bitset.h", "symbols": ["BLBitSetWordIterator"]}]}
{"id": "C37", "title": "Font variation settings behave as a tag->value map", "statement": "get_value after any history returns the last value set; the stored list is sorted without duplicates; inline and dynamic representation agree.", "quantifier": "every history", "why_tests_cant": "histories", "anchors": [{"file": "blend2d/core/fontvariationsettings.cpp", "symbols": ["bl_font_variation_settings_set_value", "bl_font_variation_settings_get_value"]}]}
{"id": "C38", "title": "Pixel format shift/mask conversion is consistent", "statement": "Component replication used for converting 5/6/4-bit components to 8 bits is exact rounding-consistent, and packing then unpacking is the identity.", "quantifier": "every component value", "why_tests_cant": "finite but per width; composition over packed words is 2^32", "anchors": [{"file": "blend2d/pixelops/scalar_p.h", "symbols": ["cvt_xrgb32_0888_from_xrgb16_0555", "cvt_xrgb32_0888_from_xrgb16_0565", "cvt_argb32_8888_from_argb16_4444"]}]}
{"id": "C39", "title": "Lazily computed shared content is published once and completely", "statement": "Whatever number of threads asks for a font face's character coverage at the same time, each gets the complete coverage, and the shared copy is stored by one thread only and never changes afterwards.", "quantifier": "every schedule and number of threads", "why_tests_cant": "schedules cannot be enumerated by tests", "anchors": [{"file": "blend2d/core/object_p.h", "symbols": ["bl_object_atomic_content_move", "bl_object_atomic_content_test"]}, {"file": "blend2d/core/fontface.cpp", "symbols": ["bl_font_face_get_character_coverage"]}]}
{"id": "C40", "title": "Worker threads execute every accepted work item exactly once", "statement": "A work item that was handed to a worker thread successfully is executed by it exactly once, with its own function and data, before the thread exits; an item that was refused is never executed; a sleeping thread is woken up whenever an item is handed over or it is told to quit; an item is refused only while another one has not been executed or after the thread was told to quit.", "quantifier": "every interleaving of any number of concurrent calls that run work on the thread or tell it to quit, and of the thread itself", "why_tests_cant": "schedules cannot be enumerated by tests; a lost wake-up or a lost item needs one particular interleaving", "anchors": [{"file": "blend2d/threading/thread.cpp", "symbols": ["bl_futex_worker_thread_run", "bl_futex_worker_thread_quit", "bl_futex_worker_thread_entry_point", "bl_portable_worker_thread_run", "bl_portable_worker_thread_quit", "bl_portable_worker_thread_entry_point"]}]}
{"id": "C41", "title": "Bit vector primitives touch exactly the requested bits", "statement": "Testing, setting, clearing a bit, filling and clearing ranges, finding the first and last bit and iterating over set bits or over runs of equal bits, for both bit orders and every word size, read or change exactly the bits asked for, never access outside of the buffer and report every bit exactly once in order.", "quantifier": "every bit vector, start position, range and word size", "why_tests_cant": "ranges and buffers of any length; word-boundary cases are easy to miss", "anchors": [{"file": "blend2d/support/bitops_p.h", "symbols": ["bit_array_op", "bit_array_fill", "bit_array_clear", "bit_array_first_bit", "bit_array_last_bit", "BitVectorIterator", "BitVectorFlipIterator"]}]}
{"id": "C42", "title": "Asynchronous render calls see the state of their own call", "statement": "In an asynchronous rendering context every fill and stroke is executed with the clip box, transformation, tolerance and stroke options that were set when the call was made, although copies of the state are shared between calls for as long as the context believes that nothing has changed.", "quantifier": "every history of state changes, saves, restores and render calls", "why_tests_cant": "which setter must invalidate which shared copy only shows for particular orders of calls", "anchors": [{"file": "blend2d/raster/rastercontext.cpp", "symbols": ["get_shared_fill_state", "get_shared_stroke_state", "restore_impl"]}]}
{"id": "C43", "title": "Font tags are identified exactly and listed once", "statement": "A font face's list of script, feature and variation tags contains exactly the tags its tables declare, each once and in increasing order; has_tag answers true exactly for those; every known tag is recognised and no other tag is; a tag is valid exactly when its four characters are printable ASCII.", "quantifier": "every 32-bit tag and every list of declared tags, in any order and with repetitions", "why_tests_cant": "the dictionaries are perfect hash tables over 2^32 tags, and the order and repetitions in which fonts declare tags are unbounded", "anchors": [{"file": "blend2d/core/fonttagdataids_p.h", "symbols": ["feature_tag_to_id", "script_tag_to_id"]}, {"file": "blend2d/core/fonttagset.cpp", "symbols": ["finalize_tag_array", "flatten_tag_set_to"]}, {"file": "blend2d/core/fonttagset_p.h", "symbols": ["_has_tag"]}, {"file": "blend2d/core/fonttagdata_p.h", "symbols": ["is_valid_tag"]}]}
{"id": "C44", "title": "The colour table of a gradient holds the interpolated colours", "statement": "Whatever the stops (offsets between 0 and 1 in order) and the table size are, every entry of the table is written and nothing outside of it; the first entry is the colour of the first stop, entries between two stops are the premultiplied colours interpolated between the stops (every component the nearest value), entries of stops and behind the last stop are exactly the colours of the stops; opaque stops give opaque entries and every entry is a valid premultiplied pixel.", "quantifier": "every list of stops, colours, table size of at most 2048 (32-bit pixels) or 1024 (64-bit pixels) entries and rounding of the offsets", "why_tests_cant": "offsets and colours cannot be enumerated; accumulated rounding errors appear only for some pairs of colours and distances", "anchors": [{"file": "blend2d/pixelops/interpolation.cpp", "symbols": ["interpolate_prgb32", "interpolate_prgb64"]}, {"file": "blend2d/support/math_p.h", "symbols": ["round_to_int"]}, {"file": "blend2d/core/rgba_p.h", "symbols": ["rgba32FromRgba64", "isRgba32FullyOpaque"]}]}
{"id": "C45", "title": "Characters are mapped to the glyphs that the font says, without reading outside of it", "statement": "Whatever bytes a font's character map consists of, loading the face and mapping any text never reads outside of the table; each character of the text becomes the glyph that the chosen sub-table gives it after the OpenType specification, or the missing glyph; the reported number of glyphs, number of missing glyphs and position of the first missing one are right; of the usable sub-tables the preferred one is chosen; the reported character coverage contains every character that has a glyph.", "quantifier": "every byte string as a table, every text", "why_tests_cant": "fonts are untrusted input of unbounded size", "anchors": [{"file": "blend2d/opentype/otcmap.cpp", "symbols": ["validate_sub_table", "map_text_to_glyphs_format4", "findSegmentFormat4", "findGroupFormat12_13", "populate_character_coverage", "init"]}, {"file": "blend2d/opentype/otcmap_p.h", "symbols": ["CMapTable"]}]}
{"id": "C46", "title": "BLPath holds exactly the figures that were put into it", "statement": "After any history of calls on any number of paths that may share storage (move_to, line_to, poly_to, curves, smooth curves, close, boxes and other geometries, appending other paths or parts of them, translate, transform, fit_to, remove_range, set_vertex_at, shrink, reserve, clear, copy, move), every path consists of exactly the commands and vertices the calls describe, other paths are unchanged, no call accesses memory that is not its own, and a call that fails for lack of memory changes nothing; asking for flags and boxes succeeds exactly if the commands make sense; the bounding box contains the path and is the smallest one, the control box also contains the control points; the figure range of an index is the figure that contains it.", "quantifier": "every history of calls on any number of paths, every vertex (exact arithmetic and NaN), every allocation outcome", "why_tests_cant": "histories and sharing are unbounded and cached boxes depend on the history", "anchors": [{"file": "blend2d/core/path.cpp", "symbols": ["bl_path_move_to", "bl_path_line_to", "bl_path_poly_to", "bl_path_smooth_quad_to", "bl_path_smooth_cubic_to", "bl_path_close", "bl_path_add_geometry", "bl_path_add_path", "bl_path_translate", "bl_path_transform", "bl_path_fit_to", "bl_path_remove_range", "bl_path_set_vertex_at", "bl_path_shrink", "bl_path_get_info_flags", "bl_path_get_bounding_box", "bl_path_get_control_box", "bl_path_get_figure_range", "bl_path_get_last_vertex"]}, {"file": "blend2d/core/path_p.h", "symbols": ["BLPathPrivateImpl"]}]}
{"id": "C47", "title": "Rasterized shapes are painted as their coverage says and the buffers are left clean", "statement": "Filling the scanlines that the rasterizer left (cells whose running sum is the coverage, and marks for groups of four cells) composes every pixel of the scanline with the mask that the non-zero or even-odd rule assigns to the coverage at that pixel, times the global alpha; pixels to the right of the filled area are unchanged; nothing outside of the buffers is read or written; all cells and marks are zero afterwards.", "quantifier": "every width, every content of the cells and marks that belongs to a closed shape, both fill rules, every alpha, every composition operator for which mask 0 changes nothing", "why_tests_cant": "the loop skips unmarked groups word by word with inverted bit words; wrong boundaries only show for particular runs of marks across word ends", "anchors": [{"file": "blend2d/pipeline/reference/fillgeneric_p.h", "symbols": ["FillAnalytic_Base", "calc_mask"]}, {"file": "blend2d/pipeline/reference/compopgeneric_p.h", "symbols": ["compositeCSpan", "composite_pixel_masked"]}]}
{"id": "C48", "title": "Boxes are painted with the area they cover and mask images with their bytes", "statement": "Filling a box whose edges lie anywhere between pixel boundaries composes every pixel with the part of its area that the box covers, times the global alpha, and changes no other pixel; filling a mask image composes every pixel of the box with the mask byte at its place times the global alpha; nothing outside of the image and the mask is accessed; an asynchronous context paints the same whatever the height, number and order of its bands.", "quantifier": "every box with 24.8 fixed point edges, every alpha, image size, mask image, band height and order of bands, every composition operator for which mask 0 changes nothing", "why_tests_cant": "sub-pixel positions, widths and heights form a space of 2^128 boxes with many special cases (one pixel wide, one scanline high, aligned on some sides only)", "anchors": [{"file": "blend2d/pipeline/reference/fillgeneric_p.h", "symbols": ["FillBoxA_Base", "FillMask_Base"]}, {"file": "blend2d/pipeline/pipedefs_p.h", "symbols": ["init_box_a_8bpc", "init_box_u_8bpc_24x8", "MaskCommand"]}, {"file": "blend2d/pipeline/reference/compopgeneric_p.h", "symbols": ["compositeVSpanWithGA", "compositeVSpanWithoutGA"]}, {"file": "blend2d/raster/rendercommandprocsync_p.h", "symbols": ["fill_box_a", "fill_box_u", "fill_box_masked_a"]}, {"file": "blend2d/raster/rendercommandprocasync_p.h", "symbols": ["fill_box_a", "fill_box_u", "fillBoxMaskA"]}]}
{"id": "C49", "title": "An edge leaves exactly its area in the cells", "statement": "Rasterizing an edge from any point to any point below it leaves, for every pixel of every scanline it crosses, the signed area to the right of the edge within the pixel (with crossings of pixel boundaries rounded to 1/256), and nothing in other scanlines, whether the edge is drawn at once or in any sequence of bands with any scanlines skipped in between; the last call reports the end of the edge; all writes lie within the recorded bounds, within the pixels of the edge and the next one, and are marked for the fill.", "quantifier": "every pair of points (24.8 fixed point), direction, sequence of bands and skipped scanlines", "why_tests_cant": "incremental error terms over any number of scanlines and pixels; four algorithms for flat and steep lines in both directions that must resume in any scanline", "anchors": [{"file": "blend2d/raster/analyticrasterizer_p.h", "symbols": ["AnalyticRasterizer", "prepare_ref", "advanceToY", "rasterize", "acc_err_step"]}, {"file": "blend2d/raster/rendercommandprocsync_p.h", "symbols": ["fill_analytic"]}, {"file": "blend2d/raster/rendercommandprocasync_p.h", "symbols": ["fill_analytic"]}]}
{"id": "C50", "title": "A filled shape is painted with the coverage of its edges", "statement": "Filling a closed shape, given as any number of edge chains in any directions and over any number of bands, paints every pixel of the image with the mask (for the fill rule and the global alpha) of the summed signed coverage of all edges at that pixel; pixels without coverage are not changed; no access is outside of the cell buffers and the image, and the buffers are zero again for the next shape.", "quantifier": "every image size, band height, number of bands, list of edge chains, fill rule, alpha, source and composition operator", "why_tests_cant": "Shapes can have any number of edges that end, start and continue in any band; tests cover a few outlines.", "anchors": [{"file": "blend2d/raster/rendercommandprocsync_p.h", "symbols": ["fill_analytic"]}, {"file": "blend2d/raster/analyticrasterizer_p.h", "symbols": ["bit_fill", "cell_add", "AnalyticActiveEdge"]}, {"file": "blend2d/raster/edgestorage_p.h", "symbols": ["EdgeVector", "bandEndFromBBox"]}]}
{"id": "C51", "title": "Threads make no difference to the image", "statement": "Drawing a batch of shapes with any number of worker threads, whatever order they take turns in, gives exactly the image that drawing the same shapes one after the other without threads gives. At any moment each scanline is either untouched or painted by all commands of the batch in their order; no worker accesses anything outside of its buffers and the image (also when the last band reaches below the image), uses the state of a command before it is initialised, or skips a command in a band that it covers.", "quantifier": "every list of shapes, image size, band height, number of workers and schedule of the workers", "why_tests_cant": "Schedules cannot be enumerated by running the code; a shape has to be picked up in whichever band a worker reaches first, after any number of skipped bands.", "anchors": [{"file": "blend2d/raster/rendercommandprocasync_p.h", "symbols": ["fill_analytic", "process_command", "init_band"]}, {"file": "blend2d/raster/workerproc.cpp", "symbols": ["process_band", "process_commands"]}, {"file": "blend2d/raster/rastercontext.cpp", "symbols": ["calculate_command_quantization_shift", "fill_clipped_edges"]}, {"file": "blend2d/raster/edgestorage_p.h", "symbols": ["flatten_edge_links"]}]}
{"id": "C52", "title": "Converting pixels keeps their colours", "statement": "A pixel converter from any accepted format (components of any sizes at any places, any depth and byte order, grey, alpha, palette, premultiplied or not) to PRGB32 or XRGB32 makes of every pixel the premultiplied colour that the format describes, components scaled to 8 bits and multiplied by alpha with exact rounding; a converter from PRGB32 stores the leading bits of each component, divided by alpha with exact rounding where the format is not premultiplied; formats with at most 8 bits per component survive the way to PRGB32 and back; every pixel of the row is written and nothing outside of the rows is accessed.", "quantifier": "every accepted pair of formats, every row of every width", "why_tests_cant": "formats are free combinations of sizes and shifts, and pixels have up to 32 bits", "anchors": [{"file": "blend2d/core/pixelconverter.cpp", "symbols": ["bl_pixel_converter_create", "bl_pixel_converter_init_internal", "bl_pixel_converter_init_simple", "bl_pixel_converter_init_8888_from_foreign", "bl_pixel_converter_init_foreign_from_8888", "bl_pixel_converter_init_indexed", "bl_pixel_converter_init_multi_step"]}, {"file": "blend2d/core/format.cpp", "symbols": ["bl_format_info_sanitize"]}]}
{"id": "C53", "title": "BMP files are decoded to the picture they describe, and written images come back", "statement": "A file that the decoder accepts gives an image of the size of its header in which every pixel has the colour that the headers, masks, palette and pixel data (uncompressed or run-length encoded, bottom-up or top-down) describe; every pixel of the image is written; whatever the file contains, nothing is read outside of it and nothing is written outside of the image; an image that is encoded and decoded again has the same pixels.", "quantifier": "every byte string as a file; every list of run-length codes; every image of every format and size", "why_tests_cant": "files are untrusted input of unbounded size, and header fields, masks and run lengths combine freely", "anchors": [{"file": "blend2d/codec/bmpcodec.cpp", "symbols": ["decodeRLE4", "decodeRLE8", "check_bit_masks", "decoder_read_info_internal", "decoder_read_frame_internal", "encoder_write_frame_impl"]}, {"file": "blend2d/core/format_p.h", "symbols": ["assign_absolute_masks"]}]}
{"id": "C54", "title": "Kerning moves the glyphs as the font says, without reading outside of it", "statement": "Applying the legacy kerning of a font to a text changes the distance of every two neighbouring glyphs by the kerning that the 'kern' table of the font gives to the pair (over all of its horizontal sub-tables in their order, sorted or not, with their minimum and override flags) and nothing else; whatever bytes the table consists of, loading the font and kerning any text reads nothing outside of the table and writes nothing outside of the placements.", "quantifier": "every table (Windows and Apple headers), every byte string as a table, every text", "why_tests_cant": "fonts are untrusted input of unbounded size; unsorted tables are split and sorted in ways that depend on all of their pairs", "anchors": [{"file": "blend2d/opentype/otkern.cpp", "symbols": ["check_kern_pairs", "fix_unsorted_kern_pairs", "apply_kern_format0", "apply_kern_format2", "finish_kern", "apply_kern", "init"]}, {"file": "blend2d/opentype/otkern_p.h", "symbols": ["KernGroup", "make_referenced", "make_synthesized"]}, {"file": "blend2d/core/font.cpp", "symbols": ["bl_font_apply_kerning"]}]}
{"id": "C55", "title": "A glyph buffer holds the text and the glyphs it was given", "statement": "After any history of calls on a glyph buffer, setting a text makes it hold the code points of the text in order, each with the index of the unit it starts at, U+FFFD for every unit that cannot be decoded, and the flag that says so; setting glyphs makes it hold these glyph ids; shaping replaces the code points by the glyphs of the font, keeps the clusters and gives each glyph its placement; calls that do not fit what the buffer holds are refused without changing it; a call that finds no memory leaves what was there; and neither a call nor the use of the glyph run touches memory outside of the buffers.", "quantifier": "every byte string as a text in each of the four encodings (with its size or terminated by zero), every array of glyph ids with any stride, every font, every sequence of calls with any pattern of failing allocations", "why_tests_cant": "texts are arbitrary untrusted bytes of unbounded length and the two buffers are reused across calls, so safety depends on the whole history", "anchors": [{"file": "blend2d/core/glyphbuffer.cpp", "symbols": ["ensure_buffer", "bl_internal_glyph_buffer_data_set_unicode_text", "bl_internal_glyph_buffer_data_set_latin1_text", "bl_internal_glyph_buffer_data_set_glyph_ids", "bl_glyph_buffer_set_text", "bl_glyph_buffer_set_glyphs", "bl_glyph_buffer_set_glyphs_from_struct", "bl_glyph_buffer_clear"]}, {"file": "blend2d/core/glyphbuffer_p.h", "symbols": ["ensure_placement", "get_glyph_data_ptrs"]}, {"file": "blend2d/core/font.cpp", "symbols": ["bl_font_map_text_to_glyphs", "bl_font_position_glyphs", "bl_font_apply_kerning", "bl_font_shape"]}]}
{"id": "C56", "title": "Glyph outlines and bounds are those of the font's tables", "statement": "For a font with TrueType outlines, the bounds of a glyph are the box stored in its data with the y axis flipped, and its outline is the closed figures its contours describe under the given matrix, with a point in the middle of neighbouring off-curve points and with components of compound glyphs placed by their own matrices; and whatever the bytes of the tables, asking for the bounds or the outline of any glyph id ends, reads only inside of the tables and writes only to memory of the path.", "quantifier": "every content of the loca and glyf tables, every glyph id, every matrix, every nesting of compound glyphs", "why_tests_cant": "fonts are untrusted files; the lengths, counts, flags and offsets in them can be arbitrary and compound glyphs can refer to each other in any way", "anchors": [{"file": "blend2d/opentype/otglyf.cpp", "symbols": ["get_glyph_bounds", "GlyfVertexDecoder", "get_glyph_outlines", "FlagToSizeGen"]}, {"file": "blend2d/opentype/otglyf_p.h", "symbols": ["CompoundEntry", "kMaxLevel"]}, {"file": "blend2d/core/path_p.h", "symbols": ["PathAppender"]}]}
{"id": "C57", "title": "The metrics of fonts and texts are those of the font's tables", "statement": "A font is accepted exactly when its head and maxp tables have allowed values and its hhea/hmtx and vhea/vmtx tables, where present, are complete; its design metrics, weight, stretch, style, PANOSE and coverage information are those its tables store (line metrics from hhea unless OS/2 asks for its own); a font of a size scales them by size over units per em; the advance of a glyph is that of its record in hmtx or of the last record; the metrics of a text are the sum of the advances and the edges of its first and last glyph; whatever the bytes of the tables, nothing outside of them and nothing uninitialised is read.", "quantifier": "every content of the tables head, maxp, OS/2, post, hhea, hmtx, vhea, vmtx, loca and glyf, every glyph id, text, size and layout", "why_tests_cant": "tables are arbitrary bytes of any length, and the counts in one table are about another one", "anchors": [{"file": "blend2d/opentype/otcore.cpp", "symbols": ["init_head", "initMaxP", "initOS_2", "init_post"]}, {"file": "blend2d/opentype/otmetrics.cpp", "symbols": ["get_glyph_advances", "init"]}, {"file": "blend2d/core/font.cpp", "symbols": ["bl_font_calc_properties", "bl_font_position_glyphs", "bl_font_get_text_metrics"]}]}
{"id": "C58", "title": "The tables of a font are those its directory describes, and lie inside of its bytes", "statement": "Font data is created exactly from bytes with a complete header of a font or of a collection of 1 to 256 fonts, with the number of faces the header says; the list of tables of a face is that of its directory; every tag that is asked for gets the table its record in the directory describes, and nothing if the record is missing or the table isn't inside of the bytes; the result is the number of tables that were found; whatever the bytes, the face and the tags, nothing outside of the bytes is read, and no table that is given out reaches outside of them.", "quantifier": "all bytes, all face indexes and all lists of tags", "why_tests_cant": "fonts are arbitrary bytes, and there is a different search for each number of tags", "anchors": [{"file": "blend2d/core/fontdata.cpp", "symbols": ["bl_font_data_create_from_data_internal", "mem_get_table_tags_impl", "mem_get_tables_impl"]}, {"file": "blend2d/opentype/otcore_p.h", "symbols": ["SFNTHeader", "TTCFHeader"]}]}
{"id": "C59", "title": "Numbers in variants convert and compare by their value", "statement": "A number stored in a variant as boolean, signed or unsigned integer or double converts to an integer type as its value: success exactly if the type has that value, otherwise the value clamped to the range and without its fraction, reported as overflow; NaN is an invalid conversion; an integer converts to the nearest double, and to success exactly if nothing was lost; a number converts to a boolean that says whether it is not zero; two variants are equal exactly if they hold numbers of the same value, the same strings or nothing, whatever their types; no conversion is undefined.", "quantifier": "all values of all number types, including infinities, NaN and integers that no double can represent", "why_tests_cant": "values are 64 bits wide, and the interesting ones are at the edges of what a double can represent", "anchors": [{"file": "blend2d/core/var.cpp", "symbols": ["bl_var_to_bool", "bl_var_to_int32", "bl_var_to_int64", "bl_var_to_uint32", "bl_var_to_uint64", "bl_var_to_double", "bl_var_equals", "bl_var_equals_int64", "bl_var_equals_uint64", "bl_var_equals_double"]}]}
{"id": "C60", "title": "The names of a font are those its table describes", "statement": "For every table of names: a face is created exactly if the header of the table is correct; reading the names never leaves the table or the buffers of the strings; each name of the face (full name, PostScript name, family and subfamily) is the text of the best record for it, the first of those that are as good: English of the United States before that of the United Kingdom, before other English, before other languages, then by encoding; the text is UTF-8 of the same characters without padding, and records whose strings are outside of the table, can't be decoded or contain null characters are not used, the latter are reported by a diagnostic flag; typographic families and subfamilies are preferred to the basic ones, those of the model of weight, width and slope are used only without any other; a subfamily that ends the family is removed.", "quantifier": "all contents of the table, all contents of the buffers", "why_tests_cant": "fonts are untrusted data, records can be in every order, point everywhere and hold every sequence of bytes", "anchors": [{"file": "blend2d/opentype/otname.cpp", "symbols": ["init", "convert_name_string_to_utf8", "normalize_family_and_subfamily", "encoding_from_platform_id"]}, {"file": "blend2d/opentype/otname_p.h", "symbols": ["NameTable", "NameRecord"]}, {"file": "blend2d/unicode/unicode_p.h", "symbols": ["Utf16Reader", "Utf8Writer"]}]}
{"id": "C61", "title": "An arena gives out memory that is aligned, owned and used once", "statement": "For every history of allocations, saved and restored states, clears and resets of an arena allocator, with and without static memory and for every behaviour of malloc: each allocation is aligned as requested, inside of a block the arena owns, and apart from all other allocations since the last clear or reset; an allocation fails only if malloc fails or the size is almost that of the address space, and then nothing changes; restoring a saved state continues where it was saved and keeps what was allocated before; clearing keeps all blocks; a reset frees each block once and never the static one; objects of a pool on the arena are apart from each other and from everything else while they are in use.", "quantifier": "all histories of calls, all sizes and alignments, all addresses malloc returns", "why_tests_cant": "whether two allocations overlap depends on the whole history of sizes, alignments, clears and addresses", "anchors": [{"file": "blend2d/support/arenaallocator.cpp", "symbols": ["_init", "reset", "clear", "_alloc"]}, {"file": "blend2d/support/arenaallocator_p.h", "symbols": ["ArenaAllocator", "alloc", "ensure", "save_state", "restore_state", "ArenaPool"]}]}
