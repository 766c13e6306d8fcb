{"claims": [
{"property": "C01", "status": "proved", "theorems": ["Wreport.C01_format_is_text", "Wreport.C01_parse_format", "Wreport.C01_format_injective", "Wreport.C01_components", "Wreport.C01_vartype_roundtrip"], "note": "All 16-bit descriptors."},
{"property": "C02", "status": "partial", "theorems": ["Wreport.C02_parse_canonical_partial", "Wreport.C02_nondigit_rejected_partial", "Wreport.C02_not_short_rejected", "Wreport.C02_not_memory_safe", "Wreport.C02_not_letter_rejected", "Wreport.C02_not_x_rejected", "Wreport.C02_not_y_rejected"], "note": "Well formed text is parsed to its descriptor and a non-digit is rejected. The code accepts other malformed text; the C02_not_ theorems are witnesses."},
{"property": "C03", "status": "partial", "theorems": ["Wreport.C03_range_fits_partial", "Wreport.C03_not_class31", "Wreport.C03_not_wide", "Wreport.C03_not_wide_negative", "Wreport.C03_not_width32"], "note": "Proved for descriptors outside class 31 with fewer than ten digits and widths up to 31 bits; the C03_not_ theorems are witnesses that compute_range breaks the property elsewhere."},
{"property": "C04", "status": "proved", "theorems": ["Wreport.C04_value", "Wreport.C04_roundtrip", "Wreport.C04_nearest", "Wreport.C04_var_roundtrip", "Wreport.C04_not_any_scale"], "note": "All 32-bit integers, scales -16..16, any rounding within the IEEE bound. C04_not_any_scale shows scales beyond 16 are outside what the code supports."},
{"property": "C05", "status": "proved", "theorems": ["Wreport.C05_value", "Wreport.C05_roundtrip"], "note": "All bit patterns up to 32 bits, scales -16..16."},
{"property": "C06", "status": "partial", "theorems": ["Wreport.C06_in_range_partial", "Wreport.C06_no_undefined_behaviour", "Wreport.C06_not_empty_range"], "note": "Proved for any sequence of sets under any options, except clamping with an empty range, where it fails (C06_not_empty_range)."},
{"property": "C07", "status": "partial", "theorems": ["Wreport.C07_seti_in_range", "Wreport.C07_seti_out_of_range", "Wreport.C07_setd_in_range", "Wreport.C07_setd_out_of_range", "Wreport.C07_setd_nan", "Wreport.C07_setd_integer_partial", "Wreport.C07_not_setd_integer", "Wreport.C07_not_setd_integer_nan"], "note": "Proved for seti, and setd on decimals including NaN and infinities. For setd on integer descriptors proved when the nearest integer fits 32 bits; it fails beyond (C07_not_)."},
{"property": "C08", "status": "proved", "theorems": ["Wreport.C08_text_is_decimal", "Wreport.C08_text_roundtrip", "Wreport.C08_min_undefined", "Wreport.C08_not_long_text_rejected"], "note": "Every stored integer except INT_MIN, whose text form is undefined behaviour (C08_min_undefined). C08_not_long_text_rejected: text beyond 32 bits wraps."},
{"property": "C09", "status": "partial", "theorems": ["Wreport.C09_decimal", "Wreport.C09_integer_partial", "Wreport.C09_not_integer"], "note": "Proved for decimal descriptors and for integer descriptors when the nearest integer fits 32 bits; fails beyond (C09_not_integer)."},
{"property": "C10", "status": "proved", "theorems": ["Wreport.C10_last_set", "Wreport.C10_read_back"], "note": "Any sequence of text sets."},
{"property": "C11", "status": "partial", "theorems": ["Wreport.C11_bits_partial", "Wreport.C11_setc_partial", "Wreport.C11_not_setc_short"], "note": "Any byte string through sets, and through setc with as many bytes as the variable has. setc, and with it set(std::string), reads beyond the end of shorter values (C11_not_setc_short)."},
{"property": "C12", "status": "proved", "theorems": ["Wreport.C12_refines_map", "Wreport.C12_iteration"], "note": "Refinement of any operation sequence to a map."},
{"property": "C13", "status": "partial", "theorems": ["Wreport.C13_eq_iff_partial", "Wreport.C13_reflexive_partial", "Wreport.C13_symmetric_partial", "Wreport.C13_transitive_partial", "Wreport.C13_copy_equal", "Wreport.C13_not_different_tables", "Wreport.C13_not_different_scale"], "note": "Proved for variables whose descriptors come from the same tables; fails for equal codes with different descriptors (C13_not_)."},
{"property": "C14", "status": "partial", "theorems": ["Wreport.C14_diff_iff_eq_partial", "Wreport.C14_not_unset"], "note": "Proved when at least one variable is set or neither has attributes; fails for unset variables with attributes (C14_not_unset)."},
{"property": "C15", "status": "partial", "theorems": ["Wreport.C15_copy_assign_partial", "Wreport.C15_copy_assign_fresh", "Wreport.C15_move_assign_partial", "Wreport.C15_move_construct", "Wreport.C15_not_longer_string", "Wreport.C15_not_number_to_string", "Wreport.C15_not_move"], "note": "Proved for equal descriptors, for never-set targets and for move construction; fails otherwise (C15_not_)."},
{"property": "C16", "status": "proved", "theorems": ["Wreport.C16_writer", "Wreport.C16_width_limits"], "note": "Bit writer appends exactly the requested bits, most significant first, for any alignment; the width limit is stated and shown."},
{"property": "C17", "status": "partial", "theorems": ["Wreport.C17_read_back_partial", "Wreport.C17_not_at_end"], "note": "Reader returns the value written whenever at least 8 further bits follow; C17_not_at_end shows the last bits of a buffer can be refused."},
{"property": "C18", "status": "partial", "theorems": ["Wreport.C18_in_bounds_partial", "Wreport.C18_sequence_partial", "Wreport.C18_not_overrun", "Wreport.C18_not_overread", "Wreport.C18_not_detected_later"], "note": "In-bounds reads never leave the buffer; negations show requests that straddle the end are not detected."},
{"property": "C19", "status": "proved", "theorems": ["Wreport.C19_round_trip", "Wreport.C19_not_empty"], "note": "Text field round trip at every alignment and width. At least one byte follows the field, as in every message."},
{"property": "C20", "status": "partial", "theorems": ["Wreport.C20_number_partial", "Wreport.C20_text_partial", "Wreport.C20_not_wide", "Wreport.C20_not_binary", "Wreport.C20_not_replication"], "note": "Holds for numbers up to 32 bits and text/binary of 8 to 32 whole bytes; negations show undefined behaviour above 32 bits and values taken for missing."},
{"property": "C21", "status": "proved", "theorems": ["Wreport.C21_round_trip"], "note": "Declared bits survive for every width and alignment. At least one byte follows the field, as in every message."},
{"property": "C22", "status": "partial", "theorems": ["Wreport.C22_round_trip_partial", "Wreport.C22_accepted_partial", "Wreport.C22_not_wide", "Wreport.C22_not_factor"], "note": "Proved for every value that fits the field, hence for all accepted values of descriptors below 10 digits outside class 31; negation for wider ones."},
{"property": "C23", "status": "partial", "theorems": ["Wreport.C23_increments_partial", "Wreport.C23_constant", "Wreport.C23_missing_base", "Wreport.C23_not_wide"], "note": "Proved for widths up to 31 bits, and 32 where signed overflow wraps; otherwise 32 bits always overflow (C23_not_wide)."},
{"property": "C24", "status": "proved", "theorems": ["Wreport.C24_constant", "Wreport.C24_per_subset", "Wreport.C24_any_base"], "note": "Constant and per-subset strings, with any base. At least one byte follows the field, as in every message."},
{"property": "C25", "status": "proved", "theorems": ["Wreport.C25_semantic", "Wreport.C25_stream", "Wreport.C25_string"], "note": "Numbers and strings that steer decoding. At least one byte follows the field, as in every message."},
{"property": "C26", "status": "partial", "theorems": ["Wreport.C26_edition4_partial", "Wreport.C26_not_master_table", "Wreport.C26_edition3"], "note": "Editions 2 and 3: every carried field comes back. Edition 4: every field comes back except the master table number, always written as zero (C26_not_master_table)."},
{"property": "C27", "status": "proved", "theorems": ["Wreport.C27_century_window"], "note": "Exactly the years 1951..2050."},
{"property": "C28", "status": "partial", "theorems": ["Wreport.C28_even_partial", "Wreport.C28_odd", "Wreport.C28_not_odd"], "note": "Even lengths and absence are preserved; an odd section gains a NUL (C28_odd, C28_not_odd)."},
{"property": "C29", "status": "partial", "theorems": ["Wreport.C29_round_trip_partial", "Wreport.C29_no_subsets", "Wreport.C29_not_long"], "note": "Descriptors and 1..65535 subsets, in messages shorter than 2^24 bytes. A list of 2^23 descriptors or more is encoded with a truncated length of section 3 and not decoded to the same (C29_not_long)."},
{"property": "C30", "status": "partial", "theorems": ["Wreport.C30_self_delimiting_partial", "Wreport.C30_not_total"], "note": "Holds for messages shorter than 2^24 bytes; a longer message with short sections stores a truncated length (C30_not_total)."},
{"property": "C31", "status": "partial", "theorems": ["Wreport.C31_accepted", "Wreport.C31_header", "Wreport.C31_end_marker_partial", "Wreport.C31_short_section4", "Wreport.C31_not_parse_error"], "note": "Messages are accepted only if all sections are inside and the end marker follows, and header decoding has no undefined behaviour, for every byte string. A message that ends with a section 4 shorter than its header is read beyond its end instead of raising a parse error (C31_not_parse_error)."},
{"property": "C32", "status": "partial", "theorems": ["Wreport.C32_round_trip_partial", "Wreport.C32_message_partial", "Wreport.C32_not_chars", "Wreport.C32_not_chars_missing"], "note": "Whole data sections and whole messages, by a lockstep simulation of encoder and decoder over every descriptor list, with associated fields, bitmaps, attributes and substituted values; values must fit their fields. Negations for short and missing character data."},
{"property": "C33", "status": "partial", "theorems": ["Wreport.C33_sequence_partial", "Wreport.C33_stack", "Wreport.C33_not_bitmap_group", "Wreport.C33_not_open_definition", "Wreport.C33_not_bounded"], "note": "Expansion of a sequence equals running its listed descriptors, for every target and state, up to the model's undefined stack overflow. Excluded with witnesses: a sequence used as bitmap group, a sequence ending in an operator lacking its operand, and self-referential sequences."},
{"property": "C34", "status": "partial", "theorems": ["Wreport.C34_fixed_partial", "Wreport.C34_delayed_partial", "Wreport.C34_delayed_encode_partial", "Wreport.C34_delayed_decode_partial", "Wreport.C34_not_open_group"], "note": "Fixed and delayed replication equal the written-out copies for complete groups, with encoder and decoder taking the factor from the data. Groups ending in an open operator are excluded, see C34_not_open_group."},
{"property": "C35", "status": "partial", "theorems": ["Wreport.C35_last_wins", "Wreport.C35_effective_partial", "Wreport.C35_refused_partial", "Wreport.C35_cancel", "Wreport.C35_string_length_partial", "Wreport.C35_reference_group", "Wreport.C35_not_code_table", "Wreport.C35_not_string", "Wreport.C35_not_large_increase", "Wreport.C35_not_cancel_reference"], "note": "Last operand wins and cancel restores, effective width, scale and reference proved for numeric elements. Code tables, strings, C07 with large operands and C03 cancel exhibited as violations."},
{"property": "C36", "status": "partial", "theorems": ["Wreport.C36_selection", "Wreport.C36_order_partial", "Wreport.C36_attribute", "Wreport.C36_reuse_partial", "Wreport.C36_not_all_absent", "Wreport.C36_not_redefined"], "note": "Selection exact and refusal of long bitmaps proved for all codes, anchors and texts; order, end of use and reuse with 2 37 000 proved for bitmaps selecting something. Bitmaps selecting nothing and a bitmap refused while another is in use are undefined, see C36_not_*."},
{"property": "C37", "status": "partial", "theorems": ["Wreport.C37_value_partial", "Wreport.C37_field_partial", "Wreport.C37_not_21", "Wreport.C37_not_reserved", "Wreport.C37_not_one_bit"], "note": "Value and bits proved for significances 1, 2, 6, 7, 8 and widths 1-31. Significance 21 loses the value, reserved ones drop it, a one-bit 1 is taken as missing: C37_not_*."},
{"property": "C38", "status": "partial", "theorems": ["Wreport.C38_round_trip_partial", "Wreport.C38_refused", "Wreport.C38_not_zero", "Wreport.C38_not_wide"], "note": "Round trip and refusal proved for all nonzero references and widths up to 32. Reference 0 uses clz(0), wider operators are undefined: C38_not_*."},
{"property": "C39", "status": "partial", "theorems": ["Wreport.C39_fits_partial", "Wreport.C39_attribute_partial", "Wreport.C39_exact_partial", "Wreport.C39_not_32", "Wreport.C39_not_missing", "Wreport.C39_run_partial", "Wreport.C39_not_field", "Wreport.C39_not_bitmap"], "note": "Accepted numbers and attributes are written exactly and acceptance is equivalent to fitting, for widths 1-31; whole subsets accepted by validation with the conditions it leaves out (C39_run_partial) are encoded. Width 32, missing strings, associated fields and bitmap lengths exhibited in C39_not_*."},
{"property": "C40", "status": "proved", "theorems": ["Wreport.C40_lookup", "Wreport.C40_contents_bufr", "Wreport.C40_contents_crex", "Wreport.C40_rejects"], "note": "Lookup finds exactly the listed entry for every table state reachable by loading and altered lookups; loaded entries correspond to file lines; unsorted files rejected."},
{"property": "C41", "status": "partial", "theorems": ["Wreport.C41_exact", "Wreport.C41_stable", "Wreport.C41_undisturbed", "Wreport.C41_identity", "Wreport.C41_unsupported", "Wreport.C41_width", "Wreport.C41_supported_partial", "Wreport.C41_not_supported"], "note": "Exactness, stability, identity, non-interference and unsupported requests proved for every request sequence. Supported requests proved to succeed unless the range computation overflows an int: there the code has undefined behaviour (C41_not_supported)."},
{"property": "C42", "status": "partial", "theorems": ["Wreport.C42_lookup_partial", "Wreport.C42_sound", "Wreport.C42_lists_unique", "Wreport.C42_not_unsorted"], "note": "Proved for files listing sequences in increasing order. Loading does not check the order and shipped table files violate it: C42_not_unsorted."},
{"property": "C43", "status": "proved", "theorems": ["Wreport.C43_bufr_order", "Wreport.C43_crex_order"], "note": "BufrTableID and CrexTableID orders"},
{"property": "C44", "status": "partial", "theorems": ["Wreport.C44_bufr", "Wreport.C44_crex_partial", "Wreport.C44_not_mixed"], "note": "True for two tables of the same kind; BUFR against CREX is cyclic, shown by C44_not_mixed"},
{"property": "C45", "status": "proved", "theorems": ["Wreport.C45_bufr", "Wreport.C45_crex"], "note": "For every sequence of added directories and questions, with any directory contents; the search alone needs that CREX identifiers come from file names"},
{"property": "C46", "status": "proved", "theorems": ["Wreport.C46_bufr_stream", "Wreport.C46_written", "Wreport.C46_read_sound", "Wreport.C46_encoded"], "note": "A stream of well formed BUFR messages separated by text without the signature is read message by message at the right offsets; messages produced by the encoder are of this kind."},
{"property": "C47", "status": "partial", "theorems": ["Wreport.C47_first_partial", "Wreport.C47_sound", "Wreport.C47_not_overlapping", "Wreport.C47_not_message"], "note": "Proved: the reader stops at the first occurrence of the signature when no earlier byte run begins a partial match that the signature overlaps, and whatever it returns starts at an occurrence. Missing because false in the code: after a partial match the scanner does not reconsider the current byte, so the signature in BBUFR is not found (C47_not_overlapping, C47_not_message)."},
{"property": "C48", "status": "partial", "theorems": ["Wreport.C48_crex_stream_partial", "Wreport.C48_fillers_partial", "Wreport.C48_not_plus", "Wreport.C48_not_trailing"], "note": "Proved: a stream of CREX messages whose end marker occurs once is read back exactly, with any fillers between them. Missing because false in the code: a data section ending in three plus signs hides the end marker (C48_not_plus) and the line end the encoder writes after the end marker is not part of what is read back (C48_not_trailing)."},
{"property": "C49", "status": "partial", "theorems": ["Wreport.Crex.C49_number_partial", "Wreport.Crex.C49_missing", "Wreport.Crex.C49_not_digit"], "note": "Proved: numbers in range with no more digits than the field (up to 253 characters) round trip with any following text not starting with a digit; missing values round trip. Missing because false in the code: a digit right after the field becomes part of the number (C49_not_digit)."},
{"property": "C50", "status": "partial", "theorems": ["Wreport.Crex.C50_text_partial", "Wreport.Crex.C50_not_slash", "Wreport.Crex.C50_not_empty", "Wreport.Crex.C50_not_long"], "note": "Proved: texts that fit, are not empty, do not begin with a blank or slash and do not end with a blank round trip. Missing because false in the code: texts beginning with a slash are read as missing (C50_not_slash), the empty text misaligns the reader (C50_not_empty), texts of 255 characters or more are written wrongly (C50_not_long)."},
{"property": "C51", "status": "partial", "theorems": ["Wreport.Crex.C51_written_partial", "Wreport.Crex.C51_accepted_partial", "Wreport.Crex.C51_not_written", "Wreport.Crex.C51_not_missing"], "note": "Proved: digits written form the cyclic sequence, and the reader accepts exactly that sequence, for any number of set values. Missing because false in the code: missing values are written without a check digit (C51_not_missing) and encoding a bulletin never writes check digits (C51_not_written)."},
{"property": "C52", "status": "partial", "theorems": ["Wreport.Crex.C52_ends_partial", "Wreport.Crex.C52_endless", "Wreport.Crex.C52_not_ending"], "note": "Proved: decoding ends within as many loop turns as there are characters unless the descriptor list meets a character that starts nothing known; in exactly that case it never ends (C52_endless). False in general: C52_not_ending is a text on which the decoder never ends."},
{"property": "C53", "status": "partial", "theorems": ["Wreport.C53_same", "Wreport.C53_registered", "Wreport.C53_both_ways", "Wreport.C53_inverse_partial", "Wreport.C53_rough", "Wreport.C53_not_tenths", "Wreport.C53_not_feet"], "note": "Identity, lookup and error proved for every sorted order of the repository; inverse up to rounding except K-C/10 (reverse offset wrong, C53_not_tenths) and seven pairs registered with factors that are not inverse (C53_not_feet; within 1/49000 by C53_rough)."},
{"property": "C54", "status": "partial", "theorems": ["Wreport.C54_clouds", "Wreport.C54_clouds_inverse", "Wreport.C54_clouds_distinct", "Wreport.C54_weather_partial", "Wreport.C54_not_negative", "Wreport.C54_levels_forward", "Wreport.C54_levels_back", "Wreport.C54_levels_inverse", "Wreport.C54_levels_inverse_back", "Wreport.C54_not_levels", "Wreport.C54_aof", "Wreport.C54_octants", "Wreport.C54_degrees", "Wreport.C54_not_nan"], "note": "Cloud types, level significance and octants characterised for every value; present and past weather accept negative codes (C54_not_negative) and NaN degrees give octant 7 (C54_not_nan)."},
{"property": "C55", "status": "proved", "theorems": ["Wreport.C55_restored", "Wreport.C55_scoped", "Wreport.C55_nested", "Wreport.C55_order_needed", "Wreport.C55_threads"], "note": "Programs with nested scopes, exceptions and assignments; also as events and for several threads"},
{"property": "C56", "status": "proved", "theorems": ["Wreport.C56_obtain", "Wreport.C56_not_loaded", "Wreport.C56_subset", "Wreport.C56_history"], "note": "Single accesses and whole histories"},
{"property": "C57", "status": "partial", "theorems": ["Wreport.C57_diff_partial", "Wreport.C57_same", "Wreport.C57_not_compression", "Wreport.C57_not_crex_bufr_version", "Wreport.C57_not_without_tables"], "note": "Exact characterisation of what is compared; compression, CREX BUFR version, attributes of unset variables and missing tables are the gaps, each with a witness"},
{"property": "C58", "status": "partial", "theorems": ["Wreport.C58_bitmap_partial", "Wreport.C58_fixed", "Wreport.C58_not_enough", "Wreport.C58_not_operator_last", "Wreport.C58_not_unset"], "note": "For subsets with enough element variables; shorter ones are undefined behaviour and unset attributes count, with witnesses"},
{"property": "C59", "status": "partial", "theorems": ["Wreport.C59_whole", "Wreport.C59_pop_left", "Wreport.C59_pop_leftN", "Wreport.C59_head_next", "Wreport.C59_sub_partial", "Wreport.C59_index_partial", "Wreport.C59_not_rejected"], "note": "Split, head, next, sub-views and indexing inside the view proved. operator[] one past the end reads outside the view (C59_not_rejected); offsets beyond the array are undefined."},
{"property": "C60", "status": "partial", "theorems": ["Wreport.C60_made_up_partial", "Wreport.C60_not_made_up"], "note": "Code always right, lengths right for bitmaps and unknown data. Refusals and stale character length exhibited in C60_not_made_up."},
{"property": "C61", "status": "partial", "theorems": ["Wreport.Crex.C61_message_partial", "Wreport.Crex.C61_not_subsets", "Wreport.Crex.C61_not_factor", "Wreport.Crex.C61_not_last_factor", "Wreport.Crex.C61_not_subcategory", "Wreport.Crex.C61_not_empty"], "note": "One subset without check digits and with header numbers that fit: the text is determined and decoding it gives copies of all variables, for all descriptors with nesting, replication and width operators. Two subsets, replication factors followed by missing values or by the end, large subcategories and empty descriptor lists are not read back by the code (witnesses C61_not_*)."},
{"property": "C62", "status": "partial", "theorems": ["Wreport.C62_names_partial", "Wreport.C62_dtable", "Wreport.C62_not_master", "Wreport.C62_not_version", "Wreport.C62_not_sign"], "note": "Master table number of long names is ignored, versions above 255 wrap, signs are accepted in names: C62_not_master, C62_not_version, C62_not_sign"},
{"property": "C63", "status": "partial", "theorems": ["Wreport.C63_first_crex_partial", "Wreport.C63_not_first", "Wreport.C63_order", "Wreport.C63_once", "Wreport.C63_first"], "note": "Order, uniqueness, and first of equals for BUFR messages; for CREX messages among tables of the same kind, and when a CREX table is found. Fails when a CREX table comes before an equally good BUFR table: the BUFR table is found (C63_not_first)."},
{"property": "C64", "status": "proved", "theorems": ["Wreport.C64_clear", "Wreport.C64_needs_tables"], "note": ""},
{"property": "C65", "status": "partial", "theorems": ["Wreport.C65_factors_partial", "Wreport.C65_not_nanobar", "Wreport.C65_not_tenths"], "note": "All registered linear conversions but PA-NBAR in both directions and C/10 to K, whose values are wrong (C65_not_nanobar, C65_not_tenths)."},
{"property": "C66", "status": "partial", "theorems": ["Wreport.C66_columns_partial", "Wreport.C66_message_partial", "Wreport.C66_same_partial", "Wreport.C66_not_chars", "Wreport.C66_not_references"], "note": "Whole data sections and messages of compressed data, with bitmaps, quality attributes, substituted values and associated fields, decoded to the given subsets with their attributes and to the same as uncompressed data; missing: fields of 32 bits, associated fields missing in only some subsets or given for texts (C67), and binary elements, C05 characters and reference changes, which the code does not implement."},
{"property": "C67", "status": "partial", "theorems": ["Wreport.C67_values_partial", "Wreport.C67_same_partial", "Wreport.C67_missing_partial", "Wreport.C67_not_missing", "Wreport.C67_not_all_ones", "Wreport.C67_not_text"], "note": "Numbers whose associated fields are all present, with any increments or the same value in all subsets, and fields missing in all subsets; theorems C67_not_* show the property fails for fields missing in some subsets, for all-ones increments and for texts."},
{"property": "C68", "status": "partial", "theorems": ["Wreport.C68_history_partial", "Wreport.C68_unknown", "Wreport.C68_outside", "Wreport.C68_not_double"], "note": "Proved for requests whose values fit their element and for integers that do not; doubles for integer elements may be stored as another number (C68_not_double)."},
{"property": "C69", "status": "proved", "theorems": ["Wreport.Crex.C69_accepted"], "note": ""},
{"property": "C70", "status": "partial", "theorems": ["Wreport.C70_number_partial", "Wreport.C70_round_trip_partial", "Wreport.C70_text", "Wreport.C70_binary", "Wreport.C70_undefined", "Wreport.C70_not_long", "Wreport.C70_not_large", "Wreport.C70_not_empty", "Wreport.C70_not_binary"], "note": "Missing: values of 2^52 or more, where the claim is false (C70_not_long, C70_not_large); empty texts and binary values cannot be set back (C70_not_empty, C70_not_binary)."},
{"property": "C71", "status": "partial", "theorems": ["Wreport.Str.C71_encoding", "Wreport.Str.C71_decoding", "Wreport.Str.C71_round_trip", "Wreport.Str.C71_safe_partial", "Wreport.Str.C71_not_safe"], "note": "Encoding, decoding and round trip hold for all texts; decoding a text with an opening brace reads past the table (C71_not_safe, C71_safe_partial says exactly when)."},
{"property": "C72", "status": "partial", "theorems": ["Wreport.Str.C72_round_trip", "Wreport.Str.C72_characters", "Wreport.Str.C72_cut_partial", "Wreport.Str.C72_not_cut"], "note": "Round trip and alphabet proved for all texts; a lone percent sign is decoded to a NUL instead of being ignored (C72_not_cut)."},
{"property": "C73", "status": "partial", "theorems": ["Wreport.Str.C73_shown", "Wreport.Str.C73_round_trip_partial", "Wreport.Str.C73_printable", "Wreport.Str.C73_not_control"], "note": "Proved for texts without control characters other than newline, tab and NUL; other control characters come back as NUL (C73_not_control)."},
{"property": "C74", "status": "partial", "theorems": ["Wreport.Str.C74_split", "Wreport.Str.C74_join", "Wreport.Str.C74_back", "Wreport.Str.C74_skip_partial", "Wreport.Str.C74_not_skipped", "Wreport.Str.C74_not_ending"], "note": "Splitting at a separator that is not empty and joining proved in full. Skipping empty pieces fails for texts of separators only (C74_not_skipped) and never ends for an empty separator (C74_not_ending)."},
{"property": "C75", "status": "partial", "theorems": ["Wreport.Str.C75_append", "Wreport.Str.C75_basename", "Wreport.Str.C75_dirname", "Wreport.Str.C75_normalised_partial", "Wreport.Str.C75_not_climbing", "Wreport.Str.C75_idempotent"], "note": "appendpath, basename and dirname for every path; normpath for every path that does not climb above its start, where the code has undefined behaviour (C75_not_climbing)."},
{"property": "C76", "status": "proved", "theorems": ["Wreport.Str.C76_stripped", "Wreport.Str.C76_unique", "Wreport.Str.C76_affixes"], "note": ""},
{"property": "C77", "status": "partial", "theorems": ["Wreport.C77_decoded", "Wreport.C77_decoded_all", "Wreport.C77_compressed", "Wreport.C77_validated_partial", "Wreport.C77_crex_partial", "Wreport.C77_elements", "Wreport.C77_not_all_taken", "Wreport.C77_not_bitmap_code", "Wreport.C77_not_encoded", "Wreport.C77_not_missing_factor"], "note": "Proved for decoded uncompressed and compressed BUFR, for the variables validation looks at, and for CREX with factors that are present. Validation ignores trailing variables and bitmap codes, the encoder ignores codes, a missing CREX factor counts 4294967295 (C77_not_*)."},
{"property": "C78", "status": "partial", "theorems": ["Wreport.C78_undefined_partial", "Wreport.C78_subsets_partial", "Wreport.C78_not_conversely", "Wreport.C78_not_undefined", "Wreport.C78_compressed_partial"], "note": "decoding with the option succeeding implies decoding without it, equal up to attributes standing for missing fields, for uncompressed and compressed data; the converse fails when table B lacks the element, and for significance 21 the added attribute has value 0"},
{"property": "C79", "status": "partial", "theorems": ["Wreport.C79_found_partial", "Wreport.C79_operators_partial", "Wreport.C79_replications_partial", "Wreport.C79_once_partial", "Wreport.C79_not_scanned", "Wreport.C79_not_bitmap"], "note": "Proved for descriptors that can be scanned; the scan throws on 2 05, 2 03, associated fields and 2 23 255, and does not report the replication of a bitmap."},
{"property": "C80", "status": "partial", "theorems": ["Wreport.C80_outline_partial", "Wreport.C80_determined", "Wreport.C80_lines_partial", "Wreport.C80_indentation", "Wreport.C80_not_bitmap", "Wreport.C80_not_printed"], "note": "Proved for descriptors that can be printed; printing throws on 2 05 and 2 23 255, and the replication of a bitmap has no line."},
{"property": "C81", "status": "partial", "theorems": ["Wreport.C81_printout_partial", "Wreport.C81_subsets_partial", "Wreport.C81_not_position", "Wreport.C81_not_printed"], "note": "Items, paths, truth and order proved for every printout; positions of variables are one too high and changes of reference values throw (shown)."},
{"property": "C82", "status": "proved", "theorems": ["Wreport.C82_string", "Wreport.C82_binary"], "note": "Strings of all widths, binary values of whole bytes, all contents. At least one byte follows the field, as in every message."},
{"property": "C83", "status": "partial", "theorems": ["Wreport.C83_round_trip_partial", "Wreport.C83_message_partial", "Wreport.C83_not_reference", "Wreport.C83_not_padding", "Wreport.C83_not_missing_text", "Wreport.C83_not_twice", "Wreport.C83_not_field"], "note": "Proved for data each field of which an encoder could have written (Spec/Reread), for any number of subsets and for messages; the code changes padding, reference values, repeated attributes and reserved associated fields (witnesses), and writing a missing text is undefined."},
{"property": "C84", "status": "proved", "theorems": ["Wreport.C84_data", "Wreport.C84_compressed", "Wreport.C84_message", "Wreport.C84_crex", "Wreport.C84_process_bufr", "Wreport.C84_process_crex"], "note": "all decoders, any bytes; options that do not clamp, with any hook that keeps variables sane"},
{"property": "C85", "status": "partial", "theorems": ["Wreport.C85_crex_partial", "Wreport.C85_data_partial", "Wreport.C85_not_truncated", "Wreport.C85_not_compressed", "Wreport.C85_not_reference", "Wreport.C85_not_field", "Wreport.C85_not_bitmap", "Wreport.C85_not_second_bitmap", "Wreport.C85_not_nul"], "note": "CREX: any text without NULs, for descriptors within bounds on C01 and C07. BUFR, not compressed: any data long enough for the descriptors, without bitmap operators. Witnesses show the code has undefined behaviour on shorter data, compressed increments of 32 bits, wide reference values and fields, bitmaps that mark nothing or that follow one another, NULs in descriptors"},
{"property": "C86", "status": "partial", "theorems": ["Wreport.C86_data_partial", "Wreport.C86_compressed_partial", "Wreport.C86_completed", "Wreport.C86_not_exact", "Wreport.C86_not_last_byte"], "note": "For other data longer than what was read. Fails for other data that ends where decoding ended (C86_not_exact): bits that are left of the last byte are refused there. C86_not_last_byte shows the end of the data itself is not always noticed."},
{"property": "C87", "status": "proved", "theorems": ["Wreport.C87_header", "Wreport.C87_refused", "Wreport.C87_trailing"], "note": "Every field, by octet, for any bytes; which data is refused, and how; data that follows makes no difference. Loading of tables is not part of it."},
{"property": "C88", "status": "proved", "theorems": ["Wreport.C88_bufr", "Wreport.C88_crex", "Wreport.C88_sequences"], "note": "Element tables: of every table that is loaded. Descriptions are not modelled."},
{"property": "C89", "status": "proved", "theorems": ["Wreport.C89_lines", "Wreport.C89_columns", "Wreport.C89_uncompressed", "Wreport.C89_compressed", "Wreport.C89_message"], "note": "Equality of outcomes for compressed and uncompressed data and whole messages, under tables as the library makes them. The lines of the report, for subsets and for columns of compressed data, without associated fields, local descriptors, character data, changes of reference values and bitmaps."},
{"property": "C90", "status": "partial", "theorems": ["Wreport.C90_own_increment_partial", "Wreport.C90_not_hook"], "note": "Proved without a hook and with every hook whose effect does not depend on the value the variable had; fails with others: with a hook that leaves the variable alone a subset gets the value of the one before it (C90_not_hook)"},
{"property": "C91", "status": "partial", "theorems": ["Wreport.Own.C91_owned_partial", "Wreport.Own.C91_not_text_to_number", "Wreport.Own.C91_not_number_to_text", "Wreport.Own.C91_not_number_moved_to_text", "Wreport.Own.C91_not_own_text", "Wreport.Own.C91_not_own_attribute"], "note": "Proved for all programs whose operations are defined on values and which do not assign between numbers and texts, with hooks that store a number or unset; counterexamples show that such assignments, assigning an own attribute and setting a text to its own value break it."},
{"property": "C92", "status": "partial", "theorems": ["Wreport.C92_var_partial", "Wreport.C92_var_quiet", "Wreport.C92_bulletin_partial", "Wreport.C92_texts", "Wreport.C92_collect_partial", "Wreport.C92_not_collect", "Wreport.C92_not_smallest", "Wreport.C92_not_binary", "Wreport.C92_not_amount", "Wreport.C92_not_first", "Wreport.C92_not_scale"], "note": "Proved for variables from the same tables and bulletins of them, without the smallest 32-bit number and binary values without NUL; programs that open no Collect where notes are discarded. Fails otherwise: witnesses. The count is not the amount of notes."},
{"property": "C93", "status": "proved", "theorems": ["Wreport.C93_bufr", "Wreport.C93_crex", "Wreport.C93_kept", "Wreport.C93_read", "Wreport.C93_bufr_tables", "Wreport.C93_crex_tables"], "note": "For decoding, with alteration requests as separate steps at any time between messages."},
{"property": "C94", "status": "partial", "theorems": ["Wreport.C94_bufr_partial", "Wreport.C94_bufr_failed_partial", "Wreport.C94_crex_partial", "Wreport.C94_crex_failed_partial", "Wreport.C94_not_atomic"], "note": "Fails when the element table can be read and the sequence table cannot (C94_not_atomic); otherwise proved."},
{"property": "C95", "status": "partial", "theorems": ["Wreport.C95_header", "Wreport.C95_message_partial", "Wreport.C95_not_overrun", "Wreport.C95_crex"], "note": "CREX messages and headers of BUFR in full; BUFR messages whose values are in the message. A BUFR message too short for its descriptors is decoded with its end section and what follows (C95_not_overrun)."},
{"property": "C96", "status": "partial", "theorems": ["Wreport.C96_plain_partial", "Wreport.C96_not_optional"], "note": "Proved for messages without optional section. Every message with one is refused (C96_not_optional): the ++ that ends it is not skipped."},
{"property": "C97", "status": "proved", "theorems": ["Wreport.C97_copied", "Wreport.C97_again"], "note": "For every command line, file contents and tables, BUFR and CREX; C97_again: running on its own output changes nothing. Standard error is not modelled."},
{"property": "C98", "status": "partial", "theorems": ["Wreport.C98_printed_partial", "Wreport.C98_not_columns"], "note": "Rows, their order and their contents are proved for all inputs. C98_not_columns: a variable that is missing leaves no column, so that columns do not tell which code they are for."},
{"property": "C99", "status": "partial", "theorems": ["Wreport.C99_understood_partial", "Wreport.C99_alike_partial", "Wreport.C99_not_print", "Wreport.C99_not_help", "Wreport.C99_not_refused"], "note": "Command lines written as the help says are understood, but for -h and -p (C99_not_help, C99_not_print); malformed lists of codes are not refused (C99_not_refused)."},
{"property": "C100", "status": "partial", "theorems": ["Wreport.C100_head_partial", "Wreport.C100_variables_partial", "Wreport.C100_values_partial", "Wreport.C100_not_values", "Wreport.C100_not_lines"], "note": "Header, descriptors, variables, attributes and the text of values are told apart for all messages whose texts are on one line; values too below 2^52. A missing value and the text (undef) are printed alike, and a text with a newline can look like two variables."},
{"property": "C101", "status": "partial", "theorems": ["Wreport.C101_kept_partial", "Wreport.C101_not_wide", "Wreport.C101_not_cut", "Wreport.C101_not_nul", "Wreport.C101_not_number", "Wreport.C101_not_binary", "Wreport.C101_not_binary_cut", "Wreport.C101_not_binary_short"], "note": "Reading gives back what was stored for integers within int, floats, and UTF-8 text that fits. Wider integers, cut texts, texts that are no numbers and binary values: witnesses that it fails."},
{"property": "C102", "status": "partial", "theorems": ["Wreport.C102_calls_partial", "Wreport.C102_never_system_partial", "Wreport.C102_compare_partial", "Wreport.C102_not_huge", "Wreport.C102_not_code", "Wreport.C102_not_tables"], "note": "Invariant over all programs; every call returns or raises an exception of the table. Integers beyond 64 bits, codes of the wrong length, variables of one code from two tables: witnesses that it fails."},
{"property": "C103", "status": "partial", "theorems": ["Wreport.C103_get_attrs_partial", "Wreport.C103_program_partial", "Wreport.C103_enqa_partial", "Wreport.C103_not_enqa_alone", "Wreport.C103_clean_partial", "Wreport.C103_get_attrs_all_partial"], "note": "get_attrs for all sequences of operations and attributes of any type, binary ones with the unused bits that setters leave zero; enqa fails: what it returns has the attributes that come after (witness), up to which it is proved."},
{"property": "C104", "status": "partial", "theorems": ["Wreport.C104_bufr_partial", "Wreport.C104_crex_partial", "Wreport.C104_name", "Wreport.C104_missing", "Wreport.C104_message", "Wreport.C104_not_fields", "Wreport.C104_not_crex", "Wreport.C104_not_crex_any", "Wreport.C104_not_none"], "note": "Numbers too large for their field are cut, get_crex with one version finds no CREX table, and basename=None is refused: negations proved. Proved for all processes, directories, files and numbers that fit."},
{"property": "C105", "status": "partial", "theorems": ["Wreport.C105_lookup_partial", "Wreport.C105_agree_partial", "Wreport.C105_malformed_partial", "Wreport.C105_not_length", "Wreport.C105_not_iterate", "Wreport.C105_not_refused", "Wreport.C105_not_short"], "note": "The code has no length or iteration and accepts texts that are not codes: negations proved. Proved for all tables and all keys whose text can be looked at."},
{"property": "C106", "status": "partial", "theorems": ["Wreport.C106_values_partial", "Wreport.C106_code", "Wreport.C106_nil", "Wreport.C106_not_binary"], "note": "Contents of binary variables are cut or read past their end: negation proved. Proved for all other variables and for the code, nil and unset variables of all types."},
{"property": "C107", "status": "partial", "theorems": ["Wreport.C107_lines_partial", "Wreport.C107_same", "Wreport.C107_not_crex"], "note": "Both directions of what is written, for every command line, every file and every directory of tables (C107_lines_partial), and that equal numbers mean equal tables (C107_same). It fails for CREX messages whose header can be read and whose data cannot (C107_not_crex)."},
{"property": "C108", "status": "partial", "theorems": ["Wreport.C108_lines_partial", "Wreport.C108_features_partial", "Wreport.C108_not_crex"], "note": "Both directions of what is written (C108_lines_partial), the features in order, without repetitions, each naming something in the message and naming every operator (C108_features_partial). It fails for CREX messages whose header can be read and whose data cannot (C108_not_crex)."},
{"property": "C109", "status": "partial", "theorems": ["Wreport.C109_bufr_partial", "Wreport.C109_not_values", "Wreport.C109_not_crex"], "note": "code violates it: no trace of CREX messages, and no values of elements with associated fields; the report of BUFR messages is proved when operators only change how elements are written"},
{"property": "C110", "status": "partial", "theorems": ["Wreport.C110_nearest", "Wreport.C110_again", "Wreport.C110_stored_partial", "Wreport.C110_not_stored"], "note": "Fails for numbers halfway between two that can be held: round_decimal takes one and a variable the other (C110_not_stored). Otherwise proved; rounding again up to 2^50 units of the last digit."},
{"property": "C111", "status": "partial", "theorems": ["Wreport.Py.C111_read_partial", "Wreport.Py.C111_values", "Wreport.Py.C111_same", "Wreport.Py.C111_not_unit"], "note": "Fails for units cut within a character (C111_not_unit); otherwise proved. Descriptive texts are not modelled."},
{"property": "C112", "status": "partial", "theorems": ["Wreport.Py.C112_same", "Wreport.Py.C112_unknown", "Wreport.Py.C112_arguments", "Wreport.Py.C112_back_partial", "Wreport.Py.C112_ends_partial", "Wreport.Py.C112_not_octants"], "note": "Fails for octants and an infinity or NaN, which is undefined behaviour (C112_not_octants), and there and back for the pairs named in C53; otherwise proved."},
{"property": "C113", "status": "partial", "theorems": ["Wreport.Import.C113_bufr_partial", "Wreport.Import.C113_crex_partial", "Wreport.Import.C113_not_width", "Wreport.Import.C113_not_unit", "Wreport.Import.C113_not_crex"], "note": "Proved for plain text and numbers that fit. False in the code for units with characters beyond ASCII, as in the distributed line of B15028, for units of 24 characters, and in CREX for elements without CREX columns"},
{"property": "C114", "status": "proved", "theorems": ["Wreport.Import.C114_sequences", "Wreport.C114_empty"], "note": ""},
{"property": "C115", "status": "partial", "theorems": ["Wreport.Import.C115_names_partial", "Wreport.Import.C115_not_subversion", "Wreport.Import.C115_not_version", "Wreport.Import.C115_not_crex"], "note": "False in the code for subversions, versions above 255 and all CREX files, whose version is taken for an edition"},
{"property": "C116", "status": "proved", "theorems": ["Wreport.C116_contents"], "note": "with the descriptions of elements as a parameter"},
{"property": "C117", "status": "partial", "theorems": ["Wreport.C117_outline_partial", "Wreport.C117_not_crex"], "note": "code violates it: CREX messages have to be decoded whole, printing gives up on some operators and leaves out bitmaps"},
{"property": "C118", "status": "partial", "theorems": ["Wreport.C118_items_partial", "Wreport.C118_subsets_partial", "Wreport.C118_not_lines"], "note": "code violates it: notices of missing attributes and associated fields end no line, and printing gives up on changes of reference values"},
{"property": "C119", "status": "proved", "theorems": ["Wreport.C119_told_apart", "Wreport.C119_listed"], "note": "for names without NUL"},
{"property": "C120", "status": "proved", "theorems": ["Wreport.C120_bufr", "Wreport.C120_crex"], "note": "for names without NUL"},
{"property": "C121", "status": "partial", "theorems": ["Wreport.C121_searched_partial", "Wreport.C121_default_partial", "Wreport.C121_not_unset"], "note": "code violates it: when a variable is not set, a null pointer is printed with %s"},
{"property": "C122", "status": "partial", "theorems": ["Wreport.C122_positive", "Wreport.C122_falling_partial", "Wreport.C122_not_falling"], "note": "Positive, standard at zero, and falling on each side of 11000 m and from below it to a centimetre above; at 11000 m the formulas do not meet and the pressure rises a little (C122_not_falling). Real numbers, without rounding."},
{"property": "C123", "status": "partial", "theorems": ["Wreport.C123_status_partial", "Wreport.C123_not_values"], "note": "Code violates it: afl-test decodes headers only, so that messages whose data cannot be decoded end it with status 0 (C123_not_values). Proved: it ends, and status 0 is exactly that the file is read to its end and all headers decode."},
{"property": "C124", "status": "partial", "theorems": ["Wreport.C124_options_partial", "Wreport.C124_determined", "Wreport.C124_not_letter"], "note": "Code violates it: -B is in the help text and not among the letters given to getopt_long, so that it is refused (C124_not_letter). Proved for all other options, and for all command lines that are not understood."}
]}
