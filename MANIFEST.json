{
 "claims": [
  {
   "property": "C01",
   "status": "proved",
   "theorems": [
    "Verif.Props.C01_size_field_round_trip",
    "Verif.Props.C01_size_field_refusal",
    "Verif.Props.C01_auto_width_refusal",
    "Verif.Props.C01_size_zero_ub"
   ],
   "note": ""
  },
  {
   "property": "C02",
   "status": "proved",
   "theorems": [
    "Verif.Props.C02_auto_width_minimal"
   ],
   "note": ""
  },
  {
   "property": "C03",
   "status": "proved",
   "theorems": [
    "Verif.Props.C03_id_round_trip"
   ],
   "note": ""
  },
  {
   "property": "C04",
   "status": "proved",
   "theorems": [
    "Verif.Props.C04_uint_round_trip",
    "Verif.Props.C04_mkvparser_large_values"
   ],
   "note": ""
  },
  {
   "property": "C05",
   "status": "proved",
   "theorems": [
    "Verif.Props.C05_int_round_trip",
    "Verif.Props.C05_int_width_minimal"
   ],
   "note": ""
  },
  {
   "property": "C06",
   "status": "proved",
   "theorems": [
    "Verif.Props.C06_uint_size",
    "Verif.Props.C06_uint_fixed_size",
    "Verif.Props.C06_int_size",
    "Verif.Props.C06_float_size",
    "Verif.Props.C06_date_size",
    "Verif.Props.C06_master_size",
    "Verif.Props.C06_string_size",
    "Verif.Props.C06_binary_size",
    "Verif.Props.C06_string_truncated"
   ],
   "note": "C06_string_truncated: for strings of 4 GiB or more the C++ code itself violates the property (32-bit length in Write); the theorems carry that bound."
  },
  {
   "property": "C07",
   "status": "proved",
   "theorems": [
    "Verif.Props.C07_void_exact",
    "Verif.Props.C07_void_failure",
    "Verif.Props.C07_128_possible_but_refused"
   ],
   "note": "C07_void_failure and C07_128_possible_but_refused delimit the sizes that are refused."
  },
  {
   "property": "C08",
   "status": "partial",
   "theorems": [
    "Verif.Props.C08_children_inside_partial",
    "Verif.Props.C08_crossing_payload_refused",
    "Verif.Props.C08_encodings_unchecked",
    "Verif.Props.C08_header_in_bounds",
    "Verif.Props.C08_failure_is_format_error",
    "Verif.Props.C08_crossing_header_refused"
   ],
   "note": "The header and, for all elements read with the common loop (segment information, tracks, chapters, tags, seek head and what is in them), the payloads. False for ContentEncodings, whose errors the code ignores (C08_encodings_unchecked)."
  },
  {
   "property": "C09",
   "status": "proved",
   "theorems": [
    "Verif.Props.C09_sizes_agree",
    "Verif.Props.C09_ids_agree",
    "Verif.Props.C09_length_agrees"
   ],
   "note": ""
  },
  {
   "property": "C10",
   "status": "partial",
   "theorems": [
    "Verif.Props.C10_var_int",
    "Verif.Props.C10_id",
    "Verif.Props.C10_size",
    "Verif.Props.C10_int",
    "Verif.Props.C10_float",
    "Verif.Props.C10_date",
    "Verif.Props.C10_id_element",
    "Verif.Props.C10_bytes",
    "Verif.Props.C10_block_header",
    "Verif.Props.C10_block_header_garbage",
    "Verif.Props.C10_bool_partial",
    "Verif.Props.C10_bool_counterexample"
   ],
   "note": "All parsers except booleans in full; for booleans the byte count after a refused value depends on the schedule in the code itself (C10_bool_counterexample)."
  },
  {
   "property": "C11",
   "status": "proved",
   "theorems": [
    "Verif.Props.C11_simple_block",
    "Verif.Props.C11_block_group",
    "Verif.Props.C11_size",
    "Verif.Props.C11_id",
    "Verif.Props.C11_uint",
    "Verif.Props.C11_int",
    "Verif.Props.C11_float",
    "Verif.Props.C11_string",
    "Verif.Props.C11_binary",
    "Verif.Props.C11_date",
    "Verif.Props.C11_master",
    "Verif.Props.C11_void",
    "Verif.Props.C11_width_refused"
   ],
   "note": ""
  },
  {
   "property": "C12",
   "status": "proved",
   "theorems": [
    "Verif.Props.C12_simple_block_round_trip",
    "Verif.Props.C12_two_gigabyte_frames"
   ],
   "note": ""
  },
  {
   "property": "C13",
   "status": "proved",
   "theorems": [
    "Verif.Props.C13_block_group_round_trip",
    "Verif.Props.C13_bad_frame_refused",
    "Verif.Props.C13_good_frame_written"
   ],
   "note": ""
  },
  {
   "property": "C14",
   "status": "proved",
   "theorems": [
    "Verif.Props.C14_frames_tile_block",
    "Verif.Props.C14_entry_frames_inside"
   ],
   "note": ""
  },
  {
   "property": "C15",
   "status": "proved",
   "theorems": [
    "Verif.Props.C15_lacing_decoded"
   ],
   "note": ""
  },
  {
   "property": "C16",
   "status": "partial",
   "theorems": [
    "Verif.Props.C16_block_frames_partial",
    "Verif.Props.C16_fixed_lacing_position_wrong"
   ],
   "note": "Positions announced for fixed-size lacing omit the block header length in the code itself (C16_fixed_lacing_position_wrong); everything else is proved."
  },
  {
   "property": "C17",
   "status": "partial",
   "theorems": [
    "Verif.Props.C17_request",
    "Verif.Props.C17_distinct",
    "Verif.Props.C17_stable",
    "Verif.Props.C17_encodable_partial",
    "Verif.Props.C17_automatic",
    "Verif.Props.C17_automatic_encodable",
    "Verif.Props.C17_automatic_too_many",
    "Verif.Props.C17_skips_free_numbers"
   ],
   "note": "Automatic numbers beyond 126 are possible in the code itself (C17_automatic_too_many)."
  },
  {
   "property": "C18",
   "status": "partial",
   "theorems": [
    "Verif.Props.C18_relative_time",
    "Verif.Props.C18_file_partial"
   ],
   "note": "Cluster level: refused exactly when the time does not fit. For whole files C18_file; a frame whose time does not fit is refused (C21)."
  },
  {
   "property": "C19",
   "status": "partial",
   "theorems": [
    "Verif.Props.C19_open_partial",
    "Verif.Props.C19_closed_partial",
    "Verif.Props.C19_failed_write_unaccounted",
    "Verif.Props.C19_never_overstates"
   ],
   "note": "Exact as long as no output call fails, and a failed call is always reported. After a failed call the code itself violates the equation (C19_failed_write_unaccounted); C19_never_overstates is what remains."
  },
  {
   "property": "C20",
   "status": "partial",
   "theorems": [
    "Verif.Props.C20_merge_partial",
    "Verif.Props.C20_unordered_input",
    "Verif.Props.C20_use_after_free"
   ],
   "note": "Nothing lost, duplicated or reordered within a track, for every takeable input; timestamp order for input in timestamp order. The code itself violates the unconditional claim (C20_unordered_input, C20_use_after_free)."
  },
  {
   "property": "C21",
   "status": "partial",
   "theorems": [
    "Verif.Props.C21_file_partial",
    "Verif.Props.C21_in_order",
    "Verif.Props.C21_live_partial",
    "Verif.Props.C21_accepted_frame_lost",
    "Verif.Props.C21_waiting_frame_dropped",
    "Verif.Props.C21_only_audio_lost",
    "Verif.Props.C21_times_decrease",
    "Verif.Props.C21_refused_then_accepted",
    "Verif.Props.C21_empty_frame_undefined",
    "Verif.Props.C21_wedged",
    "Verif.Props.C21_accurate_frame_lost"
   ],
   "note": "Proved for segments that write frames at once (not accurate_cluster_duration), with an output that does not fail, for well-formed frames whose waiting (audio) frames are in order; with the layout of the whole file. Without these conditions the property is false of the code: the negative theorems show accepted frames that are lost, times that decrease, use of freed memory."
  },
  {
   "property": "C22",
   "status": "partial",
   "theorems": [
    "Verif.Props.C22_cues_address_blocks_partial",
    "Verif.Props.C22_after_moving_partial",
    "Verif.Props.C22_accurate_wrong_cluster",
    "Verif.Props.C22_moving_without_cluster",
    "Verif.Props.C22_moving_live_undefined",
    "Verif.Props.C22_moving_failure_unnoticed"
   ],
   "note": "Proved for the same histories as C21, for the finished file and for the copy with the cues moved before the clusters (C22_after_moving_partial, with C23 for the recursion). False with accurate_cluster_duration (C22_accurate_wrong_cluster). Negative theorems for the copying call: no cluster, live mode, unnoticed output failures."
  },
  {
   "property": "C23",
   "status": "proved",
   "theorems": [
    "Verif.Props.C23_moving_cues",
    "Verif.Props.C23_missing_cues_entry_overwrites"
   ],
   "note": ""
  },
  {
   "property": "C24",
   "status": "partial",
   "theorems": [
    "Verif.Props.C24_capacity",
    "Verif.Props.C24_reserve",
    "Verif.Props.C24_seek_head_fits_partial",
    "Verif.Props.C24_entry_exact",
    "Verif.Props.C24_not_seekable",
    "Verif.Props.C24_full_head_overruns"
   ],
   "note": "The seek head within its space; five entries with eight-byte positions overrun it (C24_full_head_overruns)."
  },
  {
   "property": "C25",
   "status": "proved",
   "theorems": [
    "Verif.Props.C25_write",
    "Verif.Props.C25_round_trip",
    "Verif.Props.C25_incomplete",
    "Verif.Props.C25_empty_doc_type",
    "Verif.Props.C25_unreadable_versions"
   ],
   "note": ""
  },
  {
   "property": "C26",
   "status": "partial",
   "theorems": [
    "Verif.Props.C26_cues_round_trip_partial",
    "Verif.Props.C26_refused",
    "Verif.Props.C26_large_time_unreadable"
   ],
   "note": "Times below 2^63; larger ones are written but not read back (C26_large_time_unreadable)."
  },
  {
   "property": "C27",
   "status": "proved",
   "theorems": [
    "Verif.Props.C27_find_cluster",
    "Verif.Props.C27_time_overflow"
   ],
   "note": ""
  },
  {
   "property": "C28",
   "status": "proved",
   "theorems": [
    "Verif.Props.C28_find",
    "Verif.Props.C28_time_overflow"
   ],
   "note": ""
  },
  {
   "property": "C29",
   "status": "proved",
   "theorems": [
    "Verif.Props.C29_cluster_table",
    "Verif.Props.C29_search"
   ],
   "note": ""
  },
  {
   "property": "C30",
   "status": "proved",
   "theorems": [
    "Verif.Props.C30_block_time",
    "Verif.Props.C30_block_timecode"
   ],
   "note": ""
  },
  {
   "property": "C31",
   "status": "proved",
   "theorems": [
    "Verif.Props.C31_schedule_independent",
    "Verif.Props.C31_same_bytes_same_calls"
   ],
   "note": "Status and calls are independent of the schedule for every byte string and callback; bytes read and parser state too, unless the status is a parsing error (a refused boolean is noticed after a schedule-dependent number of bytes, C10_bool_counterexample). Callbacks answer without asking to be called again."
  },
  {
   "property": "C32",
   "status": "proved",
   "theorems": [
    "Verif.Props.C32_errors_are_sticky",
    "Verif.Props.C32_cleared_by_seek"
   ],
   "note": ""
  },
  {
   "property": "C33",
   "status": "partial",
   "theorems": [
    "Verif.Props.C33_exact_size_partial",
    "Verif.Props.C33_skipped_exact_size",
    "Verif.Props.C33_unknown_exact_size",
    "Verif.Props.C33_block_virtual_reads_less",
    "Verif.Props.C33_block_virtual_misread"
   ],
   "note": "Every element kind, read, passed over or skipped. BlockVirtual is read short by the code itself (C33_block_virtual_reads_less, C33_block_virtual_misread)."
  },
  {
   "property": "C34",
   "status": "partial",
   "theorems": [
    "Verif.Props.C34_colour_reported_unknown",
    "Verif.Props.C34_ancestors_sound",
    "Verif.Props.C34_unknown_ids",
    "Verif.Props.C34_ancestors_complete_partial",
    "Verif.Props.C34_colour_and_projection_unknown",
    "Verif.Props.C34_no_assertion",
    "Verif.Props.C34_element_announced_first"
   ],
   "note": "Every ID. The elements of Colour, MasteringMetadata and Projection are missing from the code's table (C34_colour_and_projection_unknown, C34_colour_reported_unknown)."
  },
  {
   "property": "C35",
   "status": "proved",
   "theorems": [
    "Verif.Props.C35_lines",
    "Verif.Props.C35_init",
    "Verif.Props.C35_cues"
   ],
   "note": "For streams that end regularly. Two adjacent line ends CR, LF around an empty line are excluded: that text has one line end fewer."
  },
  {
   "property": "C36",
   "status": "proved",
   "theorems": [
    "Verif.Props.C36_number",
    "Verif.Props.C36_not_a_number",
    "Verif.Props.C36_no_overflow"
   ],
   "note": ""
  },
  {
   "property": "C37",
   "status": "partial",
   "theorems": [
    "Verif.Props.C37_stamp_partial",
    "Verif.Props.C37_accepted",
    "Verif.Props.C37_leading_zero"
   ],
   "note": "Stamps whose fraction has a leading zero are misread by the code itself (C37_leading_zero: .005 is read as 500 ms)."
  },
  {
   "property": "C38",
   "status": "partial",
   "theorems": [
    "Verif.Props.C38_round_trip_partial",
    "Verif.Props.C38_large_ub",
    "Verif.Props.C38_negative",
    "Verif.Props.C38_order",
    "Verif.Props.C38_add_partial",
    "Verif.Props.C38_difference"
   ],
   "note": "From 2147484000 ms on, setting a time overflows an int in the code itself (C38_large_ub). Order, difference and the conversion to milliseconds are proved in full."
  },
  {
   "property": "C39",
   "status": "proved",
   "theorems": [
    "Verif.Props.C39_escaped_has_no_start_code",
    "Verif.Props.C39_escape_total",
    "Verif.Props.C39_packet_start_code",
    "Verif.Props.C39_start_code_at_payload"
   ],
   "note": ""
  },
  {
   "property": "C40",
   "status": "partial",
   "theorems": [
    "Verif.Props.C40_unescape_escape_partial",
    "Verif.Props.C40_long_run_lost",
    "Verif.Props.C40_truncated_reads_past_end"
   ],
   "note": "The equivalence shows exactly which payloads are recovered; C40_long_run_lost is a payload the code itself does not recover."
  },
  {
   "property": "C41",
   "status": "proved",
   "theorems": [
    "Verif.Props.C41_transport_packets",
    "Verif.Props.C41_packet_size",
    "Verif.Props.C41_counter_restarts"
   ],
   "note": "Per call. C41_counter_restarts: across calls the code itself restarts the counter."
  },
  {
   "property": "C42",
   "status": "partial",
   "theorems": [
    "Verif.Props.C42_pts_exact",
    "Verif.Props.C42_pts_small_partial",
    "Verif.Props.C42_pts_corrupted",
    "Verif.Props.C42_pts_sign"
   ],
   "note": "C42_pts_exact says exactly which times survive; C42_pts_corrupted and C42_pts_sign are times the code itself does not preserve."
  },
  {
   "property": "C43",
   "status": "proved",
   "theorems": [
    "Verif.Props.C43_superframe_index",
    "Verif.Props.C43_no_index",
    "Verif.Props.C43_ranges_tile",
    "Verif.Props.C43_short_body_refused"
   ],
   "note": ""
  },
  {
   "property": "C44",
   "status": "proved",
   "theorems": [
    "Verif.Props.C44_in_bounds",
    "Verif.Props.C44_zero_padding"
   ],
   "note": ""
  },
  {
   "property": "C45",
   "status": "proved",
   "theorems": [
    "Verif.Props.C45_figures",
    "Verif.Props.C45_luma_rate",
    "Verif.Props.C45_span",
    "Verif.Props.C45_large_picture_ub",
    "Verif.Props.C45_luma_rate_unordered"
   ],
   "note": "Counters and 64-bit sums are unbounded in the model. Pictures of 2^31 samples or more are undefined behaviour (C45_large_picture_ub). The luma rate needs non-decreasing times (C45_luma_rate_unordered)."
  },
  {
   "property": "C46",
   "status": "partial",
   "theorems": [
    "Verif.Props.C46_in_bounds",
    "Verif.Props.C46_features",
    "Verif.Props.C46_legal_accepted",
    "Verif.Props.C46_accepted_partial",
    "Verif.Props.C46_illegal_level_accepted",
    "Verif.Props.C46_short_refused"
   ],
   "note": "Memory safety, the reported features and acceptance of legal data are proved in full. That accepted data is legal is proved except for level records after a legal one, where it is false (C46_illegal_level_accepted)."
  },
  {
   "property": "C47",
   "status": "partial",
   "theorems": [
    "Verif.Props.C47_pes_stream_partial",
    "Verif.Props.C47_stuck_after_bad_header",
    "Verif.Props.C47_bad_header_reached",
    "Verif.Props.C47_long_escaped_frame_lost"
   ],
   "note": "The provisos are necessary: C40_long_run_lost, C42_pts_corrupted, C47_long_escaped_frame_lost."
  },
  {
   "property": "C48",
   "status": "proved",
   "theorems": [
    "Verif.Props.C48_key_frame",
    "Verif.Props.C48_intra_only_frame",
    "Verif.Props.C48_inter_frame"
   ],
   "note": "The header up to the frame size for intra-only and inter frames, up to the tile information for key frames."
  },
  {
   "property": "C49",
   "status": "partial",
   "theorems": [
    "Verif.Props.C49_lowest_level_partial",
    "Verif.Props.C49_no_altref_distance_unknown",
    "Verif.Props.C49_excess_ignored",
    "Verif.Props.C49_references_ignored",
    "Verif.Props.C49_cpb_ignored"
   ],
   "note": "Proved for streams that every single limit admits in some level and that use at most four references; outside that the claim is false (C49_excess_ignored, C49_references_ignored, C49_cpb_ignored). Floating-point comparisons are parameters assumed monotone in the limit."
  },
  {
   "property": "C50",
   "status": "proved",
   "theorems": [
    "Verif.Props.C50_cues",
    "Verif.Props.C50_last_cue"
   ],
   "note": "Stamps without leading zeros in the fraction, see C37."
  },
  {
   "property": "C51",
   "status": "proved",
   "theorems": [
    "Verif.Props.C51_no_ub"
   ],
   "note": ""
  },
  {
   "property": "C52",
   "status": "proved",
   "theorems": [
    "Verif.Props.C52_last_durations"
   ],
   "note": ""
  },
  {
   "property": "C53",
   "status": "proved",
   "theorems": [
    "Verif.Props.C53_block_decoded",
    "Verif.Props.C53_short_block_refused"
   ],
   "note": ""
  },
  {
   "property": "C54",
   "status": "partial",
   "theorems": [
    "Verif.Props.C54_string_round_trip",
    "Verif.Props.C54_string_limit",
    "Verif.Props.C54_binary_round_trip",
    "Verif.Props.C54_float_round_trip",
    "Verif.Props.C54_float_refused",
    "Verif.Props.C54_date_round_trip",
    "Verif.Props.C54_integer_refused_partial",
    "Verif.Props.C54_missing_byte_read"
   ],
   "note": "Everything, except that mkvparser reads a signed number of one missing byte as 0 if the reader reports the missing byte with a positive number (C54_missing_byte_read)."
  },
  {
   "property": "C55",
   "status": "proved",
   "theorems": [
    "Verif.Props.C55_completed_means_whole_input"
   ],
   "note": ""
  },
  {
   "property": "C56",
   "status": "partial",
   "theorems": [
    "Verif.Props.C56_skipped_element_is_silent_partial",
    "Verif.Props.C56_skipped_group_silences_cluster",
    "Verif.Props.C56_refused_call_still_skips"
   ],
   "note": "No call below a skipped element, and the bytes consumed (with C33). That nothing else is affected is false in the code itself (C56_skipped_group_silences_cluster, C56_refused_call_still_skips)."
  },
  {
   "property": "C57",
   "status": "proved",
   "theorems": [
    "Verif.Props.C57_between_calls"
   ],
   "note": ""
  },
  {
   "property": "C58",
   "status": "proved",
   "theorems": [
    "Verif.Props.C58_document_read",
    "Verif.Props.C58_frames_delivered",
    "Verif.Props.C58_limit_position_after_unknown_segment",
    "Verif.Props.C58_limit_empty_element_lost",
    "Verif.Props.C58_limit_nested_chapters",
    "Verif.Props.C58_limit_empty_unknown_element"
   ],
   "note": ""
  },
  {
   "property": "C59",
   "status": "proved",
   "theorems": [
    "Verif.Props.C59_frame_filed",
    "Verif.Props.C59_asking",
    "Verif.Props.C59_clusters_trim"
   ],
   "note": ""
  },
  {
   "property": "C60",
   "status": "proved",
   "theorems": [
    "Verif.Props.C60_tracks",
    "Verif.Props.C60_tracks_refused",
    "Verif.Props.C60_chapters",
    "Verif.Props.C60_chapters_refused",
    "Verif.Props.C60_tags",
    "Verif.Props.C60_tags_refused",
    "Verif.Props.C60_small_fits",
    "Verif.Props.C60_setters",
    "Verif.Props.C60_chapter_times",
    "Verif.Props.C60_luminance_max_alone",
    "Verif.Props.C60_nan_luminance_accepted",
    "Verif.Props.C60_projection_type_unset"
   ],
   "note": ""
  },
  {
   "property": "C61",
   "status": "partial",
   "theorems": [
    "Verif.Props.C61_recording_partial",
    "Verif.Props.C61_live_partial",
    "Verif.Props.C61_interrupted_partial",
    "Verif.Props.C61_moved_partial",
    "Verif.Props.C61_reference_sign"
   ],
   "note": "For the histories of C21 (no accurate cluster durations, output that does not fail, files below 2^48 bytes): finished, live, interrupted and rearranged files."
  },
  {
   "property": "C62",
   "status": "proved",
   "theorems": [
    "Verif.Props.C62_known_elements",
    "Verif.Props.C62_all_known",
    "Verif.Props.C62_unique",
    "Verif.Props.C62_format_unique",
    "Verif.Props.C62_top",
    "Verif.Props.C62_unknown_to_parser"
   ],
   "note": "Both directions; MaxBlockAdditionID and ColourSpace are unknown to the parser (C62_unknown_to_parser)."
  },
  {
   "property": "C63",
   "status": "proved",
   "theorems": [
    "Verif.Props.C63_tracks",
    "Verif.Props.C63_info",
    "Verif.Props.C63_duration",
    "Verif.Props.C63_no_duration",
    "Verif.Props.C63_display",
    "Verif.Props.C63_modes",
    "Verif.Props.C63_binary",
    "Verif.Props.C63_luminance_limit_refused",
    "Verif.Props.C63_duration_limit"
   ],
   "note": "All settings within the limits of Spec/Reading.lean. Two limits are shown to be real: a luminance of 9999.99 (written, whole Tracks refused), a duration of 2^63 ns (undefined behaviour)."
  },
  {
   "property": "C64",
   "status": "partial",
   "theorems": [
    "Verif.Props.C64_chapters_partial",
    "Verif.Props.C64_uid_changed",
    "Verif.Props.C64_uid_changed_often",
    "Verif.Props.C64_times",
    "Verif.Props.C64_tags",
    "Verif.Props.C64_empty_missing"
   ],
   "note": "Chapters with UIDs whose first byte is below 0x80 (or of eight bytes); for all others the UID read is shown to be different (C64_uid_changed; half of the generated UIDs, C64_uid_changed_often). Tags: complete."
  },
  {
   "property": "C65",
   "status": "partial",
   "theorems": [
    "Verif.Props.C65_recording_partial",
    "Verif.Props.C65_live_partial",
    "Verif.Props.C65_interrupted_partial",
    "Verif.Props.C65_moved_partial",
    "Verif.Props.C65_unknown_length"
   ],
   "note": "For the histories of C21 (no accurate cluster durations, output that does not fail, files below 2^48 bytes) and settings within the limits of mkvparser: finished, live, interrupted and rearranged files. With a reader that does not know the length, Load never succeeds (C65_unknown_length)."
  },
  {
   "property": "C66",
   "status": "partial",
   "theorems": [
    "Verif.Props.C66_any_file_partial",
    "Verif.Props.C66_shown",
    "Verif.Props.C66_cues",
    "Verif.Props.C66_cluster_time",
    "Verif.Props.C66_cluster_time_overflow",
    "Verif.Props.C66_chapter_time_overflow",
    "Verif.Props.C66_cue_time_overflow"
   ],
   "note": "For every file and every series of the calls named; the times of clusters, chapters and cue points in nanoseconds only when they fit in 63 bits (negative theorems otherwise). Readers that have the whole file."
  },
  {
   "property": "C67",
   "status": "partial",
   "theorems": [
    "Verif.Props.C67_recording_partial",
    "Verif.Props.C67_moved_partial",
    "Verif.Props.C67_lands_on_non_key",
    "Verif.Props.C67_unnumbered"
   ],
   "note": "For the histories of C65 with cues. The frame arrived at need not be a key frame (C67_lands_on_non_key); without block numbers a seek can fail (C67_unnumbered)."
  },
  {
   "property": "C68",
   "status": "partial",
   "theorems": [
    "Verif.Props.C68_recording_partial",
    "Verif.Props.C68_moved_partial",
    "Verif.Props.C68_plays_all",
    "Verif.Props.C68_video_seek",
    "Verif.Props.C68_other_seek",
    "Verif.Props.C68_gives_up",
    "Verif.Props.C68_audio_seek_late",
    "Verif.Props.C68_seek_before_cluster"
   ],
   "note": "For the histories of C65. A track that is absent from the first 100 clusters is taken to be empty (C68_gives_up) and GetNext ends after 99 clusters without it; C68_plays_all, C68_video_seek and C68_other_seek give the conclusions for the other tracks. Counterexamples: C68_audio_seek_late, C68_seek_before_cluster."
  },
  {
   "property": "C69",
   "status": "partial",
   "theorems": [
    "Verif.Props.C69_recording_partial",
    "Verif.Props.C69_moved_partial",
    "Verif.Props.C69_right_frame",
    "Verif.Props.C69_by_number",
    "Verif.Props.C69_by_search",
    "Verif.Props.C69_number_beyond"
   ],
   "note": "Proved for recordings under the conditions of C67 (mkvparser limits, frames of the cue track in order). For any file, C69_right_frame, C69_by_number and C69_by_search say what is found; C69_number_beyond is a cue point whose block number is too large."
  },
  {
   "property": "C70",
   "status": "partial",
   "theorems": [
    "Verif.Props.C70_calls_partial",
    "Verif.Props.C70_created",
    "Verif.Props.C70_header",
    "Verif.Props.C70_file_partial",
    "Verif.Props.C70_recording",
    "Verif.Props.C70_header_too_early",
    "Verif.Props.C70_load_cannot_be_repeated",
    "Verif.Props.C70_frame_not_there",
    "Verif.Props.C70_encodings_differ"
   ],
   "note": "The calls wait and then give the result of the whole file for the parts named in the theorems (C70_recording is the whole for recordings). Not true of every file and call: C70_header_too_early, C70_load_cannot_be_repeated, C70_frame_not_there, C70_encodings_differ."
  },
  {
   "property": "C71",
   "status": "partial",
   "theorems": [
    "Verif.Props.C71_parsed",
    "Verif.Props.C71_format",
    "Verif.Props.C71_cue_partial",
    "Verif.Props.C71_nul",
    "Verif.Props.C71_zero_length"
   ],
   "note": "Proved for cues without NUL and with times that fit; C71_nul and C71_zero_length show what happens otherwise."
  },
  {
   "property": "C72",
   "status": "partial",
   "theorems": [
    "Verif.Props.C72_recording_partial"
   ],
   "note": "Proved under the conditions of C65 and for timecode scales that divide a millisecond."
  },
  {
   "property": "C73",
   "status": "proved",
   "theorems": [
    "Verif.Props.C73_loaded",
    "Verif.Props.C73_schedule",
    "Verif.Props.C73_complete",
    "Verif.Props.C73_in_order"
   ],
   "note": ""
  },
  {
   "property": "C74",
   "status": "partial",
   "theorems": [
    "Verif.Props.C74_loaded",
    "Verif.Props.C74_chapters_partial",
    "Verif.Props.C74_unnamed",
    "Verif.Props.C74_settings_lost"
   ],
   "note": "Proved for cues with an identifier; C74_unnamed and C74_settings_lost show what is refused or lost."
  },
  {
   "property": "C75",
   "status": "proved",
   "theorems": [
    "Verif.Props.C75_names"
   ],
   "note": ""
  },
  {
   "property": "C76",
   "status": "partial",
   "theorems": [
    "Verif.Props.C76_shown_partial",
    "Verif.Props.C76_subtitles_partial"
   ],
   "note": "Proved under the conditions of C65; durations of blocks and additional data are lost, as the theorems about the schedule say."
  },
  {
   "property": "C77",
   "status": "proved",
   "theorems": [
    "Verif.Props.C77_tracks",
    "Verif.Props.C77_options",
    "Verif.Props.C77_choice",
    "Verif.Props.C77_mixed",
    "Verif.Props.C77_rate",
    "Verif.Props.C77_rate_ub",
    "Verif.Props.C77_tags",
    "Verif.Props.C77_empty_tag"
   ],
   "note": ""
  },
  {
   "property": "C78",
   "status": "proved",
   "theorems": [
    "Verif.Props.C78_buffer",
    "Verif.Props.C78_stream",
    "Verif.Props.C78_stream_pipe",
    "Verif.Props.C78_skip_past_end",
    "Verif.Props.C78_cut_unnoticed",
    "Verif.Props.C78_pipe_skips_little",
    "Verif.Props.C78_mkv_open",
    "Verif.Props.C78_mkv_reader",
    "Verif.Props.C78_mkv_writer",
    "Verif.Props.C78_mkv_writer_ok",
    "Verif.Props.C78_mkv_writer_closed"
   ],
   "note": ""
  },
  {
   "property": "C79",
   "status": "proved",
   "theorems": [
    "Verif.Props.C79_structures",
    "Verif.Props.C79_everything",
    "Verif.Props.C79_inner",
    "Verif.Props.C79_presence",
    "Verif.Props.C79_defaults",
    "Verif.Props.C79_chapter_language",
    "Verif.Props.C79_nothing_missing"
   ],
   "note": ""
  },
  {
   "property": "C80",
   "status": "partial",
   "theorems": [
    "Verif.Props.C80_recording_partial",
    "Verif.Props.C80_live_partial",
    "Verif.Props.C80_interrupted_partial",
    "Verif.Props.C80_moved_partial",
    "Verif.Props.C80_video",
    "Verif.Props.C80_audio",
    "Verif.Props.C80_colour",
    "Verif.Props.C80_mastering",
    "Verif.Props.C80_projection",
    "Verif.Props.C80_encodings",
    "Verif.Props.C80_encoding",
    "Verif.Props.C80_encryption",
    "Verif.Props.C80_aes",
    "Verif.Props.C80_chapter",
    "Verif.Props.C80_display",
    "Verif.Props.C80_simple_tag",
    "Verif.Props.C80_not_told"
   ],
   "note": "Proved under the conditions of C61 (no accurate cluster durations, an output that does not fail, files below 2^48 bytes). C80_not_told: two settings are written but have no member in the structures."
  },
  {
   "property": "C81",
   "status": "partial",
   "theorems": [
    "Verif.Props.C81_any_file",
    "Verif.Props.C81_transport",
    "Verif.Props.C81_recording_partial",
    "Verif.Props.C81_wrong_track"
   ],
   "note": "Any file: proved under the condition that times are not negative and below 2^63 ns; recordings: conditions of C65, and the number of the video track is its index plus one. Without that condition the claim is false: C81_wrong_track shows a recording whose audio is sent as video."
  },
  {
   "property": "C82",
   "status": "proved",
   "theorems": [
    "Verif.Props.C82_order",
    "Verif.Props.C82_ticks",
    "Verif.Props.C82_nanoseconds",
    "Verif.Props.C82_back",
    "Verif.Props.C82_rounding",
    "Verif.Props.C82_not_exact"
   ],
   "note": ""
  },
  {
   "property": "C83",
   "status": "partial",
   "theorems": [
    "Verif.Props.C83_recording_partial",
    "Verif.Props.C83_moved_partial",
    "Verif.Props.C83_parse_cues_safe",
    "Verif.Props.C83_overflow",
    "Verif.Props.C83_live_next",
    "Verif.Props.C83_damaged"
   ],
   "note": "Proved under the conditions of C67 and for an output that can seek. ParseCues is safe for every file and offset that can be added (C83_parse_cues_safe); C83_overflow, C83_live_next and C83_damaged show where the claim ends."
  },
  {
   "property": "C84",
   "status": "partial",
   "theorems": [
    "Verif.Props.C84_recording_partial",
    "Verif.Props.C84_moved_partial",
    "Verif.Props.C84_nothing_ahead",
    "Verif.Props.C84_unread",
    "Verif.Props.C84_next_has_blocks",
    "Verif.Props.C84_notes_cues",
    "Verif.Props.C84_unknown_end",
    "Verif.Props.C84_empty_cluster"
   ],
   "note": "Proved for outputs that can seek and for all histories in which ParseNext is not called for a cluster that was neither loaded nor looked into; such calls fail for every file (C84_unread). For files of other writers C84_empty_cluster shows that ParseNext can go back."
  },
  {
   "property": "C85",
   "status": "proved",
   "theorems": [
    "Verif.Props.C85_duration",
    "Verif.Props.C85_covers",
    "Verif.Props.C85_told",
    "Verif.Props.C85_set",
    "Verif.Props.C85_estimate",
    "Verif.Props.C85_counted",
    "Verif.Props.C85_too_short",
    "Verif.Props.C85_other_frame",
    "Verif.Props.C85_far_frame",
    "Verif.Props.C85_no_estimate",
    "Verif.Props.C85_placeholder"
   ],
   "note": ""
  },
  {
   "property": "C86",
   "status": "proved",
   "theorems": [
    "Verif.Props.C86_choice",
    "Verif.Props.C86_chosen",
    "Verif.Props.C86_label",
    "Verif.Props.C86_recording",
    "Verif.Props.C86_live",
    "Verif.Props.C86_interrupted",
    "Verif.Props.C86_moved",
    "Verif.Props.C86_no_codec",
    "Verif.Props.C86_kind_not_checked"
   ],
   "note": ""
  },
  {
   "property": "C87",
   "status": "proved",
   "theorems": [
    "Verif.Props.C87_chapters",
    "Verif.Props.C87_tags",
    "Verif.Props.C87_freed",
    "Verif.Props.C87_succeeds",
    "Verif.Props.C87_stale",
    "Verif.Props.C87_failed_id_forgets",
    "Verif.Props.C87_failed_display_stays"
   ],
   "note": ""
  },
  {
   "property": "C88",
   "status": "partial",
   "theorems": [
    "Verif.Props.C88_recording_partial",
    "Verif.Props.C88_moved_partial",
    "Verif.Props.C88_ends",
    "Verif.Props.C88_span",
    "Verif.Props.C88_not_the_latest",
    "Verif.Props.C88_empty_cluster"
   ],
   "note": "For the histories of C65. C88_ends and C88_span draw the conclusions. The last time of a cluster is not the latest when frames were out of order (C88_not_the_latest); clusters without frames are passed over (C88_empty_cluster)."
  },
  {
   "property": "C89",
   "status": "partial",
   "theorems": [
    "Verif.Props.C89_set",
    "Verif.Props.C89_short",
    "Verif.Props.C89_freed_partial",
    "Verif.Props.C89_freed",
    "Verif.Props.C89_last",
    "Verif.Props.C89_kept",
    "Verif.Props.C89_colour_space_leaks",
    "Verif.Props.C89_name_lost",
    "Verif.Props.C89_private_lost",
    "Verif.Props.C89_chromaticity_lost",
    "Verif.Props.C89_chromaticity_leaks"
   ],
   "note": "The full claim is false: ~VideoTrack never deletes the colour space (C89_colour_space_leaks); C89_freed is the claim for tracks without one. Also found: a failed copy of a text or of codec private data loses the old one (C89_name_lost, C89_private_lost), SetColour succeeds without a chromaticity it could not copy (C89_chromaticity_lost), SetChromaticity twice leaks (C89_chromaticity_leaks)."
  },
  {
   "property": "C90",
   "status": "proved",
   "theorems": [
    "Verif.Props.C90_number",
    "Verif.Props.C90_data",
    "Verif.Props.C90_never_found"
   ],
   "note": ""
  },
  {
   "property": "C91",
   "status": "partial",
   "theorems": [
    "Verif.Props.C91_freed_partial",
    "Verif.Props.C91_enough",
    "Verif.Props.C91_null_used",
    "Verif.Props.C91_unread_kept"
   ],
   "note": "The full claim is false: when the array for encryptions cannot be allocated after that for compressions was, the destructor starts from a null pointer (C91_null_used). C91_freed_partial is the claim for encodings that are not both, C91_enough for enough memory. Also found: a compression whose settings cannot be read is accepted without an algorithm (C91_unread_kept)."
  },
  {
   "property": "C92",
   "status": "partial",
   "theorems": [
    "Verif.Props.C92_tags_freed",
    "Verif.Props.C92_chapters_freed",
    "Verif.Props.C92_info",
    "Verif.Props.C92_tags_shown_partial",
    "Verif.Props.C92_chapters_shown_partial",
    "Verif.Props.C92_tags_parsed",
    "Verif.Props.C92_chapters_parsed",
    "Verif.Props.C92_positive_read"
   ],
   "note": "The memory part is proved in full. That success means completeness is false for a reader that answers a failing read with a positive number: the checks one level up are for negative numbers (C92_positive_read); the theorems on what is shown exclude such readers."
  },
  {
   "property": "C93",
   "status": "partial",
   "theorems": [
    "Verif.Props.C93_freed_partial",
    "Verif.Props.C93_enough",
    "Verif.Props.C93_shown_partial",
    "Verif.Props.C93_parsed",
    "Verif.Props.C93_accepted_partial",
    "Verif.Props.C93_null_used",
    "Verif.Props.C93_encodings_dropped"
   ],
   "note": "Proved for tracks whose content encodings are not both a compression and an encryption, and for any tracks if memory is never short. Otherwise false: C93_null_used is a file and one failing allocation for which parsing uses a null pointer. The elements are a list of what is found, not bytes; the numbers of a track except its track number are left out. That content encodings which cannot be parsed are left out though parsing succeeds is C93_encodings_dropped."
  },
  {
   "property": "C94",
   "status": "proved",
   "theorems": [
    "Verif.Props.C94_loaded",
    "Verif.Props.C94_all",
    "Verif.Props.C94_lost"
   ],
   "note": "Proved in full, about lists of what the reader finds instead of bytes (C26 has the bytes). That memory running out looks like the end of the cues is C94_lost."
  },
  {
   "property": "C95",
   "status": "partial",
   "theorems": [
    "Verif.Props.C95_blocks_partial",
    "Verif.Props.C95_enough",
    "Verif.Props.C95_retry"
   ],
   "note": "Proved for every sequence of blocks and every pattern of failing allocations, except a second attempt after the very first allocation of the table failed: then an assertion fails (C95_retry), so the condition of C95_blocks_partial is exact. The blocks are what the reader finds, not bytes (C16 has the bytes)."
  },
  {
   "property": "C96",
   "status": "partial",
   "theorems": [
    "Verif.Props.C96_clusters_partial"
   ],
   "note": "Proved for every history and every pattern of failing allocations, for callers that give up a cluster for which there was no memory for the table of entries; for others an assertion fails (C95_retry). What the reader finds is given instead of bytes; the table is the list of what its slots hold (C27, C29 and C30 have the moving of slots and the checks of m_index)."
  },
  {
   "property": "C97",
   "status": "partial",
   "theorems": [
    "Verif.Props.C97_freed_partial",
    "Verif.Props.C97_shown_partial",
    "Verif.Props.C97_rest_partial",
    "Verif.Props.C97_retry_drops"
   ],
   "note": "Proved for all sequences of calls and all patterns of failing allocations. Assumed: fewer than 2^30 tags and chapters, no content encoding that is both a compression and an encryption (C93_null_used shows why); for completeness also that the reader gives no positive values. That only the first call is complete is exact: see C97_retry_drops. Elements are what the reader finds instead of bytes."
  }
 ]
}
