{
 "claims": [
  {
   "property": "C01",
   "status": "proved",
   "theorems": [
    "Npyz.Props.C01_display_parse"
   ],
   "note": "For every well-formed type string, which parsing and construction guarantee (TypeStr.Wf)."
  },
  {
   "property": "C02",
   "status": "proved",
   "theorems": [
    "Npyz.Props.C02_parse_iff",
    "Npyz.Props.C02_parse_never_panics",
    "Npyz.Props.C02_parse_err_iff"
   ],
   "note": ""
  },
  {
   "property": "C03",
   "status": "proved",
   "theorems": [
    "Npyz.Props.C03_canonical_fixpoint",
    "Npyz.Props.C03_display_of_parse"
   ],
   "note": ""
  },
  {
   "property": "C04",
   "status": "proved",
   "theorems": [
    "Npyz.Props.C04_accepted_valid",
    "Npyz.Props.C04_valid_accepted"
   ],
   "note": ""
  },
  {
   "property": "C05",
   "status": "proved",
   "theorems": [
    "Npyz.Props.C05_num_bytes",
    "Npyz.Props.C05_num_bytes_none",
    "Npyz.Props.C05_uses_pickled",
    "Npyz.Props.C05_scalar_num_bytes"
   ],
   "note": "C05_scalar_num_bytes covers type strings; the others cover dtypes with arrays and records. AllFit says exactly which intermediate sizes must fit usize."
  },
  {
   "property": "C06",
   "status": "proved",
   "theorems": [
    "Npyz.Props.C06_descr_roundtrip",
    "Npyz.Props.C06_descr_injective"
   ],
   "note": "For any Python-literal parser that agrees with the reference parser in Model/Py.lean on what it accepts."
  },
  {
   "property": "C07",
   "status": "proved",
   "theorems": [
    "Npyz.Props.C07_round_trip"
   ],
   "note": "For any Python-literal parser that agrees with the reference parser. The nonzero dimensions must multiply to less than 2^64: with overflow checks the reader computes strides that multiply all of them."
  },
  {
   "property": "C08",
   "status": "proved",
   "theorems": [
    "Npyz.Props.C08_aligned",
    "Npyz.Props.C08_text"
   ],
   "note": ""
  },
  {
   "property": "C09",
   "status": "partial",
   "theorems": [
    "Npyz.Props.C09_version",
    "Npyz.Props.C09_success_partial",
    "Npyz.Props.C09_long_ascii_panics",
    "Npyz.Props.C09_violated"
   ],
   "note": "The success clause is false of the code: C09_violated / C09_long_ascii_panics show ASCII headers with more than 65525 and less than 0xfffffc00 bytes of text panic after 8 bytes were written. C09_version holds for every header that is written; C09_success_partial gives the exact range where writing succeeds."
  },
  {
   "property": "C10",
   "status": "proved",
   "theorems": [
    "Npyz.Props.C10_consumes_header",
    "Npyz.Props.C10_local",
    "Npyz.Props.C10_outcome_local"
   ],
   "note": ""
  },
  {
   "property": "C11",
   "status": "proved",
   "theorems": [
    "Npyz.Props.C11_not_npy",
    "Npyz.Props.C11_unknown_version",
    "Npyz.Props.C11_truncated_header"
   ],
   "note": "Streams that end inside a declared header are covered by C11_truncated_header (UnexpectedEof)."
  },
  {
   "property": "C12",
   "status": "proved",
   "theorems": [
    "Npyz.Props.C12_accepted_iff",
    "Npyz.Props.C12_only_three_keys",
    "Npyz.Props.C12_permutation",
    "Npyz.Props.C12_rejected",
    "Npyz.Props.C12_not_dict"
   ],
   "note": ""
  },
  {
   "property": "C13",
   "status": "proved",
   "theorems": [
    "Npyz.Props.C13_shape_exact",
    "Npyz.Props.C13_shape_rejected",
    "Npyz.Props.C13_header_shape"
   ],
   "note": ""
  },
  {
   "property": "C14",
   "status": "partial",
   "theorems": [
    "Npyz.Props.C14_violated",
    "Npyz.Props.C14_never_panics_partial",
    "Npyz.Props.C14_panic_causes_partial"
   ],
   "note": "The property is false of the code: C14_violated gives byte streams that panic (overflowing shape product with overflow checks, also for an empty array; oversized length on 32-bit). Proved: no panic in release builds on 64-bit machines, and an exact list of causes otherwise. Panics or stack overflows inside the py_literal dependency are outside the model."
  },
  {
   "property": "C15",
   "status": "proved",
   "theorems": [
    "Npyz.Props.C15_len_is_product",
    "Npyz.Props.C15_len_total",
    "Npyz.Props.C15_len_zero"
   ],
   "note": ""
  },
  {
   "property": "C16",
   "status": "proved",
   "theorems": [
    "Npyz.Props.C16_strides_bijective",
    "Npyz.Props.C16_strides_order",
    "Npyz.Props.C16_strides_length"
   ],
   "note": ""
  },
  {
   "property": "C17",
   "status": "proved",
   "theorems": [
    "Npyz.Props.C17_len",
    "Npyz.Props.C17_next",
    "Npyz.Props.C17_seek"
   ],
   "note": "For every source, including misbehaving ones. size_hint saturates at usize::MAX on 32-bit machines."
  },
  {
   "property": "C18",
   "status": "partial",
   "theorems": [
    "Npyz.Props.C18_violated",
    "Npyz.Props.C18_random_access_partial",
    "Npyz.Props.C18_agrees_partial"
   ],
   "note": "False of the code in release builds for headers declaring 2^63 or more bytes (C18_violated: the seek offset wraps and read_at returns another element). Proved for all arrays below that limit, whether or not their data is complete."
  },
  {
   "property": "C19",
   "status": "partial",
   "theorems": [
    "Npyz.Props.C19_violated",
    "Npyz.Props.C19_after_errors_partial",
    "Npyz.Props.C19_lost_place"
   ],
   "note": "False of the code (C19_violated): a malformed U string is counted as read although only part of it was consumed. C19_after_errors_partial proves it for every type that notices malformed elements at their end (FailsLate, arrays and structs included), and C19_lost_place shows that for every other type some data makes the reader lose its place."
  },
  {
   "property": "C20",
   "status": "partial",
   "theorems": [
    "Npyz.Props.C20_out_of_range",
    "Npyz.Props.C20_violated",
    "Npyz.Props.C20_in_range_partial"
   ],
   "note": "Out-of-range calls always panic without effect. The converse is false with overflow checks for arrays of 2^63 or more declared bytes (C20_violated); C20_in_range_partial proves it otherwise."
  },
  {
   "property": "C21",
   "status": "proved",
   "theorems": [
    "Npyz.Props.C21_into_vec",
    "Npyz.Props.C21_truncated",
    "Npyz.Props.C21_trailing"
   ],
   "note": "For items that can be held in memory (at most isize::MAX bytes)."
  },
  {
   "property": "C22",
   "status": "proved",
   "theorems": [
    "Npyz.Props.C22_open",
    "Npyz.Props.C22_history",
    "Npyz.Props.C22_read_file"
   ],
   "note": ""
  },
  {
   "property": "C23",
   "status": "proved",
   "theorems": [
    "Npyz.Props.C23_header_fault",
    "Npyz.Props.C23_element_fault",
    "Npyz.Props.C23_history",
    "Npyz.Props.C23_read_file"
   ],
   "note": "C23_history and C23_read_file: sources failing at any call; C23_header_fault, C23_element_fault: at any byte offset."
  },
  {
   "property": "C24",
   "status": "proved",
   "theorems": [
    "Npyz.Props.C24_refused",
    "Npyz.Props.C24_no_type",
    "Npyz.Props.C24_others"
   ],
   "note": ""
  },
  {
   "property": "C25",
   "status": "proved",
   "theorems": [
    "Npyz.Props.C25_try_data",
    "Npyz.Props.C25_attempts"
   ],
   "note": ""
  },
  {
   "property": "C26",
   "status": "proved",
   "theorems": [
    "Npyz.Props.C26_write_size",
    "Npyz.Props.C26_write_total",
    "Npyz.Props.C26_read_size",
    "Npyz.Props.C26_read_total"
   ],
   "note": "For items that can be held in memory (at most isize::MAX bytes)."
  },
  {
   "property": "C27",
   "status": "proved",
   "theorems": [
    "Npyz.Props.C27_roundtrip_all",
    "Npyz.Props.C27_exact_roundtrip",
    "Npyz.Props.C27_number",
    "Npyz.Props.C27_bool",
    "Npyz.Props.C27_complex",
    "Npyz.Props.C27_both_orders"
   ],
   "note": "C27_number, C27_bool and C27_complex are the property; C27_roundtrip_all and C27_exact_roundtrip extend it to every supported type."
  },
  {
   "property": "C28",
   "status": "proved",
   "theorems": [
    "Npyz.Props.C28_number_bytes",
    "Npyz.Props.C28_number_value",
    "Npyz.Props.C28_complex_bytes",
    "Npyz.Props.C28_machine_independent",
    "Npyz.Props.C28_machine_independent_read"
   ],
   "note": ""
  },
  {
   "property": "C29",
   "status": "proved",
   "theorems": [
    "Npyz.Props.C29_bool_strict"
   ],
   "note": ""
  },
  {
   "property": "C30",
   "status": "proved",
   "theorems": [
    "Npyz.Props.C30_byte_str",
    "Npyz.Props.C30_raw"
   ],
   "note": ""
  },
  {
   "property": "C31",
   "status": "proved",
   "theorems": [
    "Npyz.Props.C31_string",
    "Npyz.Props.C31_string_decode",
    "Npyz.Props.C31_u32_decode",
    "Npyz.Props.C31_u32_write"
   ],
   "note": ""
  },
  {
   "property": "C32",
   "status": "proved",
   "theorems": [
    "Npyz.Props.C32_utf8",
    "Npyz.Props.C32_decode"
   ],
   "note": ""
  },
  {
   "property": "C33",
   "status": "proved",
   "theorems": [
    "Npyz.Props.C33_accepts",
    "Npyz.Props.C33_roundtrip"
   ],
   "note": ""
  },
  {
   "property": "C34",
   "status": "partial",
   "theorems": [
    "Npyz.Props.C34_raw_violated",
    "Npyz.Props.C34_array_vec_u8_partial",
    "Npyz.Props.C34_array_vec_char",
    "Npyz.Props.C34_array_vec_u32",
    "Npyz.Props.C34_fitPrefix_longest",
    "Npyz.Props.C34_array_string"
   ],
   "note": "The property is false of the code for raw data: C34_raw_violated reads the |V1 item [7] as ArrayVec<u8,2> and gets two bytes. Proved for every other combination; C34_array_vec_u8_partial states exactly what a |Vn item gives."
  },
  {
   "property": "C35",
   "status": "proved",
   "theorems": [
    "Npyz.Props.C35_accepts",
    "Npyz.Props.C35_layout",
    "Npyz.Props.C35_readback"
   ],
   "note": ""
  },
  {
   "property": "C36",
   "status": "proved",
   "theorems": [
    "Npyz.Props.C36_accepts",
    "Npyz.Props.C36_names",
    "Npyz.Props.C36_layout"
   ],
   "note": ""
  },
  {
   "property": "C37",
   "status": "proved",
   "theorems": [
    "Npyz.Props.C37_reader",
    "Npyz.Props.C37_writer",
    "Npyz.Props.C37_64bit",
    "Npyz.Props.C37_no_panic",
    "Npyz.Props.C37_read_write",
    "Npyz.Props.C37_write_read",
    "Npyz.Props.C37_no_objects",
    "Npyz.Props.C37_write_read_iff"
   ],
   "note": "CanRead/CanWrite in Spec/Codec.lean transcribe the tables of src/type_matchup_docs.rs. On 32-bit machines sizes of 2^32 and more are refused as well (SizesFit)."
  },
  {
   "property": "C38",
   "status": "proved",
   "theorems": [
    "Npyz.Props.C38_default"
   ],
   "note": "ConstsFit says that const generic parameters are usize values, which Rust guarantees."
  },
  {
   "property": "C39",
   "status": "proved",
   "theorems": [
    "Npyz.Props.C39_round_trip",
    "Npyz.Props.C39_exact",
    "Npyz.Props.C39_succeeds"
   ],
   "note": "readBack describes the trailing NULs that fixed-size strings lose; C39_exact has no such loss. C39_succeeds shows when a session succeeds (all kinds of files). Fewer than 2^64 items; on streams whose calls do not fail."
  },
  {
   "property": "C40",
   "status": "proved",
   "theorems": [
    "Npyz.Props.C40_round_trip",
    "Npyz.Props.C40_exact",
    "Npyz.Props.C40_to_file_1d"
   ],
   "note": "Start offset plus header below 2^64, fewer than 2^64 items, record_len below 2^64 (a usize)."
  },
  {
   "property": "C41",
   "status": "proved",
   "theorems": [
    "Npyz.Props.C41_only_placeholder",
    "Npyz.Props.C41_position"
   ],
   "note": "After any pushes, failed ones included, and however finish ends."
  },
  {
   "property": "C42",
   "status": "proved",
   "theorems": [
    "Npyz.Props.C42_finish_drop"
   ],
   "note": "For every state of writer and stream with fewer than 2^64 items, on streams whose calls do not fail; finish_ is the common body of finish and drop."
  },
  {
   "property": "C43",
   "status": "partial",
   "theorems": [
    "Npyz.Props.C43_two_d",
    "Npyz.Props.C43_nd_partial",
    "Npyz.Props.C43_violated"
   ],
   "note": "False of the code without overflow checks when the product of the shape exceeds u64 (C43_violated). Proved for begin_2d with nonzero record length and for begin_nd with nonzero dimensions multiplying to less than 2^64."
  },
  {
   "property": "C44",
   "status": "partial",
   "theorems": [
    "Npyz.Props.C44_zero_panics",
    "Npyz.Props.C44_violated",
    "Npyz.Props.C44_nonzero_partial"
   ],
   "note": "False of the code for record length 0 (C44_violated, C44_zero_panics: both finish and drop divide by zero). Proved for all other record lengths. (finish consumes the writer: the drop while the first panic unwinds panics again, which aborts the process.)"
  },
  {
   "property": "C45",
   "status": "partial",
   "theorems": [
    "Npyz.Props.C45_counts_attempts",
    "Npyz.Props.C45_all_ok_partial",
    "Npyz.Props.C45_violated"
   ],
   "note": "False of the code: failed pushes are counted (C45_violated; C45_counts_attempts shows the header always counts attempts). Holds when all pushes succeed."
  },
  {
   "property": "C46",
   "status": "proved",
   "theorems": [
    "Npyz.Props.C46_session",
    "Npyz.Props.C46_unfinished",
    "Npyz.Props.C46_nd"
   ],
   "note": "Crash = the process stops after n bytes were written, for every n; the file is new or appended to (nothing after the start position). The 1-D/2-D theorem assumes that the Python-literal parser rejects what the reference parser rejects among texts of the header's form (PyParser.StrictAfter)."
  },
  {
   "property": "C47",
   "status": "proved",
   "theorems": [
    "Npyz.Props.C47_torn"
   ],
   "note": "Every cut point of the rewrite and every item count. Same parser assumption as C46, plus ExtendsRef. Stronger than the property: if the file opens, also dtype, order and values are right."
  },
  {
   "property": "C48",
   "status": "partial",
   "theorems": [
    "Npyz.Props.C48_refused_partial",
    "Npyz.Props.C48_violated"
   ],
   "note": "False of the code: the header is written before the element type is checked (C48_violated, for every unsupported pair with a header of at most 65525 bytes). Proved: an error is returned and no item is written."
  },
  {
   "property": "C49",
   "status": "proved",
   "theorems": [
    "Npyz.Props.C49_last_wins",
    "Npyz.Props.C49_swap",
    "Npyz.Props.C49_permute"
   ],
   "note": "Equality of the whole programs run on the stream, for every chain of calls."
  },
  {
   "property": "C50",
   "status": "proved",
   "theorems": [
    "Npyz.Props.C50_element_offset"
   ],
   "note": ""
  },
  {
   "property": "C51",
   "status": "proved",
   "theorems": [
    "Npyz.Props.C51_array_name",
    "Npyz.Props.C51_round_trip",
    "Npyz.Props.C51_injective",
    "Npyz.Props.C51_index"
   ],
   "note": "Names and file names convert back and forth; names with NUL characters are the only ones that do not round-trip."
  },
  {
   "property": "C52",
   "status": "partial",
   "theorems": [
    "Npyz.Props.C52_found",
    "Npyz.Props.C52_found_exact",
    "Npyz.Props.C52_absent",
    "Npyz.Props.C52_listed",
    "Npyz.Props.C52_violated",
    "Npyz.Props.C52_lookup_partial"
   ],
   "note": "Violated (C52_violated): a member name that continues after a NUL is listed but cannot be looked up. C52_lookup_partial: every listed name can be looked up if no member name contains a NUL. C52_found, C52_absent, C52_listed: what is written is found."
  },
  {
   "property": "C53",
   "status": "proved",
   "theorems": [
    "Npyz.Props.C53_round_trip",
    "Npyz.Props.C53_exact",
    "Npyz.Props.C53_coo",
    "Npyz.Props.C53_csr",
    "Npyz.Props.C53_csc",
    "Npyz.Props.C53_dia",
    "Npyz.Props.C53_bsr",
    "Npyz.Props.C53_succeeds",
    "Npyz.Props.C53_succeeds_exact",
    "Npyz.Props.C53_checks"
   ],
   "note": "All five formats, for every element type with a default dtype; C53_succeeds says when writing succeeds, C53_checks that an inconsistent DIA or BSR matrix panics."
  },
  {
   "property": "C54",
   "status": "partial",
   "theorems": [
    "Npyz.Props.C54_stored_partial",
    "Npyz.Props.C54_unsigned_partial",
    "Npyz.Props.C54_read_back",
    "Npyz.Props.C54_violated"
   ],
   "note": "Violated for unsigned indices of at least 2^64 - 2^31, which are stored as negative i32 (C54_violated); they are still read back unchanged (C54_read_back). C54_stored_partial: i32 exactly if all indices taken as i64 fit."
  },
  {
   "property": "C55",
   "status": "proved",
   "theorems": [
    "Npyz.Props.C55_dispatch",
    "Npyz.Props.C55_rejected",
    "Npyz.Props.C55_format",
    "Npyz.Props.C55_unknown"
   ],
   "note": "C55_rejected: for every element type asked for."
  },
  {
   "property": "C56",
   "status": "partial",
   "theorems": [
    "Npyz.Props.C56_shape_partial",
    "Npyz.Props.C56_no_offsets",
    "Npyz.Props.C56_violated"
   ],
   "note": "Violated: the shape is [length, number of offsets] (C56_shape_partial); a matrix without offsets makes the writer panic (C56_no_offsets)."
  },
  {
   "property": "C57",
   "status": "proved",
   "theorems": [
    "Npyz.Props.C57_no_panic"
   ],
   "note": "For archives whose members can be opened without panic (C14 says when that is) and whose elements have at most isize::MAX bytes."
  },
  {
   "property": "C58",
   "status": "partial",
   "theorems": [
    "Npyz.Props.C58_violated",
    "Npyz.Props.C58_agrees_partial",
    "Npyz.Props.C58_iteration_partial"
   ],
   "note": "False of the code (C58_violated): size_hint underflows once the iterator has returned None; C58_iteration_partial says exactly what it gives then. Proved: get, to_vec and iteration agree with the streaming reader for arrays whose size fits u64 and usize."
  },
  {
   "property": "C59",
   "status": "proved",
   "theorems": [
    "Npyz.Props.C59_item_size_exact",
    "Npyz.Props.C59_oversized_refused"
   ],
   "note": ""
  },
  {
   "property": "C60",
   "status": "partial",
   "theorems": [
    "Npyz.Props.C60_violated",
    "Npyz.Props.C60_documented_defaults_partial"
   ],
   "note": "The property is false of the code for FixedSizeBytes<N>, which implements no AutoSerialize (C60_violated). Proved for all other scalar types."
  },
  {
   "property": "C61",
   "status": "partial",
   "theorems": [
    "Npyz.Props.C61_panics_partial",
    "Npyz.Props.C61_violated"
   ],
   "note": "Violated without overflow checks (C61_violated); C61_panics_partial: holds with overflow checks, or if the number of elements does not overflow usize."
  },
  {
   "property": "C62",
   "status": "proved",
   "theorems": [
    "Npyz.Props.C62_coo",
    "Npyz.Props.C62_csr",
    "Npyz.Props.C62_csc",
    "Npyz.Props.C62_dia",
    "Npyz.Props.C62_bsr"
   ],
   "note": "Both directions, for each format: reading succeeds exactly if the archive has the parts, and returns them."
  },
  {
   "property": "C63",
   "status": "proved",
   "theorems": [
    "Npyz.Props.C63_session",
    "Npyz.Props.C63_steps",
    "Npyz.Props.C63_to_file"
   ],
   "note": "Sessions, single steps and to_file_1d."
  },
  {
   "property": "C64",
   "status": "proved",
   "theorems": [
    "Npyz.Props.C64_success",
    "Npyz.Props.C64_reads_back",
    "Npyz.Props.C64_reported",
    "Npyz.Props.C64_finish"
   ],
   "note": "C64_success needs no assumption; C64_reported excludes begin_2d with record length zero (C44) and positions near 2^64."
  },
  {
   "property": "C65",
   "status": "partial",
   "theorems": [
    "Npyz.Props.C65_position_partial",
    "Npyz.Props.C65_known_shape_partial",
    "Npyz.Props.C65_violated"
   ],
   "note": "Violated: finish drops the writer, which rewrites the header again; if the seek back fails then, the error is ignored (C65_violated). Holds if no call fails (C65_position_partial), and for known shapes whatever fails (C65_known_shape_partial)."
  },
  {
   "property": "C66",
   "status": "proved",
   "theorems": [
    "Npyz.Props.C66_torn",
    "Npyz.Props.C66_limit"
   ],
   "note": "Fortran order: always. C order: item count and record length below 10^16; C66_limit shows that at 10^16 items a torn header parses as a three-axis shape."
  },
  {
   "property": "C67",
   "status": "proved",
   "theorems": [
    "Npyz.Props.C67_consecutive",
    "Npyz.Props.C67_before"
   ],
   "note": "For streams that stay below 2^64 - 76 bytes; Arr.Fits lists the limits for each array."
  },
  {
   "property": "C68",
   "status": "proved",
   "theorems": [
    "Npyz.Props.C68_grouping",
    "Npyz.Props.C68_same_file"
   ],
   "note": "For every stream (Target), including failing ones."
  },
  {
   "property": "C69",
   "status": "proved",
   "theorems": [
    "Npyz.Props.C69_same_file",
    "Npyz.Props.C69_same_meaning"
   ],
   "note": "Writing: the other machine must support the dtype (on 32-bit machines large sizes are refused). Default dtypes are of course in the byte order of the machine."
  },
  {
   "property": "C70",
   "status": "proved",
   "theorems": [
    "Npyz.Props.C70_never_wrong",
    "Npyz.Props.C70_read"
   ],
   "note": "For begin_2d in C order with fewer than 10^16 items and items per record (C66_limit shows why); values must be encodable, the parser is assumed to refuse what the reference parser refuses after the dtype."
  },
  {
   "property": "C71",
   "status": "partial",
   "theorems": [
    "Npyz.Props.C71_reader_partial",
    "Npyz.Props.C71_writer_partial",
    "Npyz.Props.C71_fields_swapped",
    "Npyz.Props.C71_data_partial",
    "Npyz.Props.C71_violated",
    "Npyz.Props.C71_excludes"
   ],
   "note": "False of the code for field names: the derive macro passes the names in the file as the expected ones (C71_violated; C71_fields_swapped shows that they are always exchanged). The partial theorems cover all other errors."
  },
  {
   "property": "C72",
   "status": "proved",
   "theorems": [
    "Npyz.Props.C72_explained",
    "Npyz.Props.C72_all_refused",
    "Npyz.Props.C72_excludes"
   ],
   "note": "The header reader formats this error, so C14's absence of panics now includes it."
  },
  {
   "property": "C73",
   "status": "partial",
   "theorems": [
    "Npyz.Props.C73_understood_partial",
    "Npyz.Props.C73_violated"
   ],
   "note": "Proved for version 3 and for ASCII headers of versions 1 and 2. C73_violated: versions 1 and 2 are Latin-1, but read as UTF-8: the field name \u00e9 makes the file unreadable, \u00c3\u00a9 is read as \u00e9. NumPy's side is a specification after numpy/lib/format.py (Spec/Numpy.lean); names whose repr needs hexadecimal escapes, titles and multiples of time units are outside it."
  },
  {
   "property": "C74",
   "status": "partial",
   "theorems": [
    "Npyz.Props.C74_numpy_reads_partial",
    "Npyz.Props.C74_header_partial",
    "Npyz.Props.C74_refused",
    "Npyz.Props.C74_header_refused",
    "Npyz.Props.C74_violated"
   ],
   "note": "Proved for records whose field names are distinct, not empty and without NUL. C74_refused, C74_header_refused: for every other dtype a successful session leaves a file NumPy does not read; C74_violated gives the witnesses. NumPy's side is a specification after numpy/lib/format.py; the configurable limit on the header length (max_header_size) and dtypes NumPy itself does not have on a platform are not in it."
  },
  {
   "property": "C75",
   "status": "proved",
   "theorems": [
    "Npyz.Props.C75_transparent",
    "Npyz.Props.C75_to_file"
   ],
   "note": "Also proved for to_file_1d. BufWriter is modelled from its documented behaviour in std: data goes to the buffer if it fits, seek and flush empty the buffer first, drop empties it and ignores errors."
  },
  {
   "property": "C76",
   "status": "proved",
   "theorems": [
    "Npyz.Props.C76_success",
    "Npyz.Props.C76_reported"
   ],
   "note": "NpyWriter's drop runs finish_ a second time after finish; if that fails, bytes may remain in the buffer, but they repeat what is in the file already, so any part of them may be lost."
  },
  {
   "property": "C77",
   "status": "proved",
   "theorems": [
    "Npyz.Props.C77_unfinished",
    "Npyz.Props.C77_never_wrong"
   ],
   "note": "Same hypotheses as C46 (unfinished files) and C70 (errors), in particular fewer than 10^16 items per axis for begin_2d in C order. A dying process is a schedule in which everything fails from some call on."
  },
  {
   "property": "C78",
   "status": "partial",
   "theorems": [
    "Npyz.Props.C78_next_partial",
    "Npyz.Props.C78_read_file_partial",
    "Npyz.Props.C78_causes_partial",
    "Npyz.Props.C78_violated"
   ],
   "note": "False of the code for items larger than isize::MAX (C78_violated: a file of 89 bytes). C78_next_partial, C78_read_file_partial and, for every machine, C78_causes_partial: nothing else panics while elements are read but the causes of C14. Calls of seek_to and read_at out of range are the subject of C20. Running out of memory below isize::MAX is not modelled."
  },
  {
   "property": "C79",
   "status": "proved",
   "theorems": [
    "Npyz.Props.C79_appends",
    "Npyz.Props.C79_header"
   ],
   "note": "Unconditional: also for sessions that fail or panic for other reasons."
  },
  {
   "property": "C80",
   "status": "partial",
   "theorems": [
    "Npyz.Props.C80_returns_partial",
    "Npyz.Props.C80_violated"
   ],
   "note": "False of the code (C80_violated; C09_violated and C44_violated give further cases): top-level array dtypes, shapes whose product overflows u64 with overflow checks, items larger than isize::MAX, ASCII headers of more than 65525 bytes, record length 0. C80_returns_partial: in all other cases the session returns (streams shorter than 2^64 bytes)."
  },
  {
   "property": "C81",
   "status": "proved",
   "theorems": [
    "Npyz.Props.C81_read_iff",
    "Npyz.Props.C81_one_meaning",
    "Npyz.Props.C81_otherwise_error",
    "Npyz.Props.C81_parse_iff",
    "Npyz.Props.C81_header_says"
   ],
   "note": "Full, with respect to the parsed Python value; the literal parser itself is a parameter. C81_parse_iff is for texts without newlines (a final newline is cut off before parsing)."
  },
  {
   "property": "C82",
   "status": "proved",
   "theorems": [
    "Npyz.Props.C82_sequential_order",
    "Npyz.Props.C82_by_index",
    "Npyz.Props.C82_by_index_auto"
   ],
   "note": "C82_sequential_order is about every file; C82_by_index and C82_by_index_auto about written ones (values up to readBack, as in C39). The storage order is specified by listing all indices (Spec/Index.lean). Files and arrays beyond 2^63 are excluded because C18 is false there."
  },
  {
   "property": "C83",
   "status": "partial",
   "theorems": [
    "Npyz.Props.C83_violated",
    "Npyz.Props.C83_violated_items",
    "Npyz.Props.C83_header_partial",
    "Npyz.Props.C83_element_partial",
    "Npyz.Props.C83_complete_partial"
   ],
   "note": "False: C83_violated (a 12-byte file makes the header reader ask for 4 GiB) and C83_violated_items (an item size up to 2^63-1 is allocated before anything is read). Proved: the buffers of the header are at most 8 bytes, the length field and the declared length, below 2^16 in version 1 and 2^32 otherwise, and all but the last are filled from the file; the buffers of one element are together at most the item size, on every input; hence nothing exceeds the file if the header is complete and one item is there. Buffer sizes are the sizes of the read_exact calls."
  },
  {
   "property": "C84",
   "status": "proved",
   "theorems": [
    "Npyz.Props.C84_accepts",
    "Npyz.Props.C84_random_access",
    "Npyz.Props.C84_collect",
    "Npyz.Props.C84_sequential",
    "Npyz.Props.C84_schedule"
   ],
   "note": "The reader is generic over the program of read_one; the types of the library (C17-C25) are instances of the same definitions. User code is limited to programs that call read_exact and return a value, an error or a panic. Arrays within the limits of i64 (see C18 for those beyond)."
  },
  {
   "property": "C85",
   "status": "proved",
   "theorems": [
    "Npyz.Props.C85_file",
    "Npyz.Props.C85_round_trip"
   ],
   "note": "The writer is generic over the programs of write_one; the types of the library (C39, C40) are instances of the same definitions. The library does not check that write_one appends as many bytes as the dtype says: C85_file makes no assumption on that, C85_round_trip does. On streams whose calls do not fail."
  },
  {
   "property": "C86",
   "status": "proved",
   "theorems": [
    "Npyz.Props.C86_unfinished",
    "Npyz.Props.C86_nd",
    "Npyz.Props.C86_torn",
    "Npyz.Props.C86_transparent",
    "Npyz.Props.C86_success",
    "Npyz.Props.C86_reported",
    "Npyz.Props.C86_left",
    "Npyz.Props.C86_buffer_transparent",
    "Npyz.Props.C86_buffer_success",
    "Npyz.Props.C86_buffer_left",
    "Npyz.Props.C86_never_wrong"
   ],
   "note": "C86_unfinished, C86_nd and C86_torn are about a process that dies at any byte; C86_transparent, C86_success and C86_reported hold for every write_one program; C86_left and the C86_buffer theorems are about schedules of failures and lost buffers, C86_never_wrong about reading back. Limits as for the library's own types: two-dimensional C-order files torn in finish need fewer than 10^16 rows (C66)."
  },
  {
   "property": "C87",
   "status": "proved",
   "theorems": [
    "Npyz.Props.C87_accepts",
    "Npyz.Props.C87_session",
    "Npyz.Props.C87_streams",
    "Npyz.Props.C87_crash"
   ],
   "note": "C87_session is for every stream that satisfies Spec/Compose Lawful; C87_streams shows that the reliable stream, the stream with scheduled failures, the buffered stream and the members of archives do. Reading into pointers does not exist in the library."
  },
  {
   "property": "C88",
   "status": "proved",
   "theorems": [
    "Npyz.Props.C88_same",
    "Npyz.Props.C88_array_accepts",
    "Npyz.Props.C88_struct_accepts",
    "Npyz.Props.C88_struct_accepts_write",
    "Npyz.Props.C88_default",
    "Npyz.Props.C88_library",
    "Npyz.Props.C88_array_reader",
    "Npyz.Props.C88_array_writer",
    "Npyz.Props.C88_struct_reader",
    "Npyz.Props.C88_no_fields",
    "Npyz.Props.C88_struct_fields",
    "Npyz.Props.C88_struct_writer",
    "Npyz.Props.C88_struct_field_writers",
    "Npyz.Props.C88_pointer_writer",
    "Npyz.Props.C88_library_round_trip",
    "Npyz.Props.C88_array_round_trip",
    "Npyz.Props.C88_struct_round_trip",
    "Npyz.Props.C88_read",
    "Npyz.Props.C88_round_trip"
   ],
   "note": "C88_same says that the library's own arrays and structs are instances; C88_library and C88_library_round_trip that its element types meet the hypotheses, so closure theorems apply to any mixture. The example beside the theorems is an array of a derived struct with a user-defined field, an array of it, and a u16."
  },
  {
   "property": "C89",
   "status": "proved",
   "theorems": [
    "Npyz.Props.C89_new",
    "Npyz.Props.C89_position",
    "Npyz.Props.C89_same_data",
    "Npyz.Props.C89_same_rest",
    "Npyz.Props.C89_cut",
    "Npyz.Props.C89_write",
    "Npyz.Props.C89_write_failed",
    "Npyz.Props.C89_write_panics"
   ],
   "note": "C89_new is for every source, C89_position and the C89_same theorems for streams with contents and a position. C89_same_rest covers any read_one program, also after errors, for reading in sequence; C89_same_data random access. C89_write is for element types whose write_one appends bytes."
  },
  {
   "property": "C90",
   "status": "proved",
   "theorems": [
    "Npyz.Props.C90_same_bytes",
    "Npyz.Props.C90_library",
    "Npyz.Props.C90_exact"
   ],
   "note": "C90_library is for all element types of the library that can be read from the dtype, C90_exact sharpens it for types without strings, C90_same_bytes is for user-defined types. The element type must be the same: 1 as u8 and true as bool have the same bytes, but different dtypes."
  },
  {
   "property": "C91",
   "status": "proved",
   "theorems": [
    "Npyz.Props.C91_never_wrong",
    "Npyz.Props.C91_formats",
    "Npyz.Props.C91_by_name",
    "Npyz.Props.C91_harmless",
    "Npyz.Props.C91_round_trip"
   ],
   "note": "What the zip crate does internally when its stream fails is outside the model: it hands errors on."
  },
  {
   "property": "C92",
   "status": "proved",
   "theorems": [
    "Npyz.Props.C92_success",
    "Npyz.Props.C92_reads_back",
    "Npyz.Props.C92_left_over",
    "Npyz.Props.C92_array"
   ],
   "note": "The central directory that the zip crate writes when the archive is closed is outside the model."
  },
  {
   "property": "C93",
   "status": "partial",
   "theorems": [
    "Npyz.Props.C93_lost_partial",
    "Npyz.Props.C93_array_partial",
    "Npyz.Props.C93_violated"
   ],
   "note": "Violated: the sparse writers drop the array writer without `finish`, so an error of the `flush` in `Drop` is lost (`C93_violated`). Proved: at most one failure is lost per member (and by C92 no data), failures to start a member never are; for single arrays written with `finish` every error is reported."
  },
  {
   "property": "C94",
   "status": "proved",
   "theorems": [
    "Npyz.Props.C94_item",
    "Npyz.Props.C94_copy",
    "Npyz.Props.C94_again"
   ],
   "note": "C94_item: the bytes read are the bytes the value is written as. C94_copy: for whole files of any origin. C94_again: the library's own files come out identical. Roomy (Spec/Resave) is the condition on fixed capacities; roomy_of_unbounded shows that it is void for types without them."
  },
  {
   "property": "C95",
   "status": "proved",
   "theorems": [
    "Npyz.Props.C95_text_reads",
    "Npyz.Props.C95_bytes_reads",
    "Npyz.Props.C95_fixed_reads",
    "Npyz.Props.C95_capacity_reads",
    "Npyz.Props.C95_text_writes",
    "Npyz.Props.C95_bytes_writes",
    "Npyz.Props.C95_capacity_writes"
   ],
   "note": "Reading is compared with ReadsItem/RejectsItem and writing with WritesItem/RefusesItem, on arbitrary streams of whole items. For ArrayVec<u8> on raw data the capacity must equal the size of the dtype, because the type requires that (C30)."
  },
  {
   "property": "C96",
   "status": "proved",
   "theorems": [
    "Npyz.Props.C96_version",
    "Npyz.Props.C96_padding",
    "Npyz.Props.C96_file",
    "Npyz.Props.C96_frame"
   ],
   "note": "Spaces around the dictionary are dealt with by the reference parser of the py_literal grammar (Model/Py.lean); texts that are the same byte for byte need no assumption about the parser."
  },
  {
   "property": "C97",
   "status": "proved",
   "theorems": [
    "Npyz.Props.C97_written",
    "Npyz.Props.C97_read",
    "Npyz.Props.C97_replace"
   ],
   "note": "Part and Put (Spec/Place.lean) describe places in values by their own rules; offsets use the sizes of C06 (exactBytes). Dtypes without a size (objects) have no readers."
  },
  {
   "property": "C98",
   "status": "proved",
   "theorems": [
    "Npyz.Props.C98_strides",
    "Npyz.Props.C98_index",
    "Npyz.Props.C98_hints",
    "Npyz.Props.C98_relabel",
    "Npyz.Props.C98_transpose"
   ],
   "note": "The index statements are for arrays of fewer than 2^63 elements and bytes, like C82 (see C18). Types of fixed capacity must have room for the items of the dtype, like C94."
  },
  {
   "property": "C99",
   "status": "partial",
   "theorems": [
    "Npyz.Props.C99_copy_partial",
    "Npyz.Props.C99_scipy",
    "Npyz.Props.C99_violated"
   ],
   "note": "Violated: an empty matrix in DIA format, as scipy saves it (no diagonals), can be read, but writing it panics; proved in C99_violated. What holds (C99_copy_partial): matrices that satisfy the assertions of the writer, which C99_scipy shows for archives whose data array has the shape scipy gives it and, for DIA, at least one diagonal. The size limits are those of C53."
  },
  {
   "property": "C100",
   "status": "proved",
   "theorems": [
    "Npyz.Props.C100_open_kinds",
    "Npyz.Props.C100_open_damaged",
    "Npyz.Props.C100_open_truncated",
    "Npyz.Props.C100_next",
    "Npyz.Props.C100_kinds",
    "Npyz.Props.C100_more",
    "Npyz.Props.C100_prefix",
    "Npyz.Props.C100_eof",
    "Npyz.Props.C100_tiny"
   ],
   "note": "Sources that fail are covered by C22 and C23. The statement that UnexpectedEof means missing data is for items that fit in memory (isize::MAX), like C26."
  },
  {
   "property": "C101",
   "status": "partial",
   "theorems": [
    "Npyz.Props.C101_bounded_partial",
    "Npyz.Props.C101_violated"
   ],
   "note": "Violated: items may have no bytes at all, e.g. '|V0' or '|S0', and then the shape alone decides; C101_violated gives, for every n below 2^64 and every machine, a file of less than 200 bytes from which n elements are read. What holds (C101_bounded_partial): the header and all items read are in the file, so for items of at least one byte the number of elements is bounded by the number of bytes."
  },
  {
   "property": "C102",
   "status": "proved",
   "theorems": [
    "Npyz.Props.C102_accepts",
    "Npyz.Props.C102_involution",
    "Npyz.Props.C102_read",
    "Npyz.Props.C102_write",
    "Npyz.Props.C102_file"
   ],
   "note": "Items that fit in memory (isize::MAX)."
  },
  {
   "property": "C103",
   "status": "proved",
   "theorems": [
    "Npyz.Props.C103_alike",
    "Npyz.Props.C103_unique",
    "Npyz.Props.C103_refused",
    "Npyz.Props.C103_default"
   ],
   "note": "Element types are those of the crate, fixed-size arrays and derived structs; structs with the same field names and types are the same type here."
  },
  {
   "property": "C104",
   "status": "proved",
   "theorems": [
    "Npyz.Props.C104_header",
    "Npyz.Props.C104_others",
    "Npyz.Props.C104_noticed",
    "Npyz.Props.C104_read_at"
   ],
   "note": "read_at for arrays that fit a file, as in C18; items that fit in memory."
  },
  {
   "property": "C105",
   "status": "proved",
   "theorems": [
    "Npyz.Props.C105_readable"
   ],
   "note": "The type must be accepted for the dtype of the file (C37); items that fit in memory."
  },
  {
   "property": "C106",
   "status": "proved",
   "theorems": [
    "Npyz.Props.C106_by_name",
    "Npyz.Props.C106_one",
    "Npyz.Props.C106_names",
    "Npyz.Props.C106_sparse"
   ],
   "note": "array_names gives no order; the model's order is not relied upon: the lists are permutations of each other. With a name twice the order does matter (the last one counts), see the example."
  },
  {
   "property": "C107",
   "status": "proved",
   "theorems": [
    "Npyz.Props.C107_open",
    "Npyz.Props.C107_types",
    "Npyz.Props.C107_read",
    "Npyz.Props.C107_write"
   ],
   "note": "Reading and saving for items within isize::MAX of the smaller machine; saving for fewer than 2^64 elements and, with seeking, a position that does not overflow."
  },
  {
   "property": "C108",
   "status": "partial",
   "theorems": [
    "Npyz.Props.C108_coo_partial",
    "Npyz.Props.C108_csr_partial",
    "Npyz.Props.C108_csc_partial",
    "Npyz.Props.C108_bsr_partial",
    "Npyz.Props.C108_dia_partial",
    "Npyz.Props.C108_violated",
    "Npyz.Props.C108_machines"
   ],
   "note": "Violated: negative indices and index pointers become huge unsigned numbers without an error (C108_violated), and on 32-bit machines index pointers are truncated, so the same file gives another matrix (C108_machines). Proved for numbers that are not negative and, for index pointers, below the word size; DIA offsets are always exact."
  },
  {
   "property": "C109",
   "status": "partial",
   "theorems": [
    "Npyz.Props.C109_names",
    "Npyz.Props.C109_write",
    "Npyz.Props.C109_read_partial",
    "Npyz.Props.C109_violated"
   ],
   "note": "Violated: with a field called `reader` or `func` that is not the last one, the derived Deserialize does not compile (C109_violated). C109_read_partial says for exactly which names it compiles, and that every field then gets its own value; Serialize and the names are proved for all names. The model is name resolution in the generated code, not Rust's type checker."
  },
  {
   "property": "C110",
   "status": "partial",
   "theorems": [
    "Npyz.Props.C110_outside",
    "Npyz.Props.C110_crash_outside",
    "Npyz.Props.C110_unfinished_partial",
    "Npyz.Props.C110_nd_partial",
    "Npyz.Props.C110_violated"
   ],
   "note": "Violated (C110_violated): a begin_nd session that stops between items leaves a mixture of new and old items; any session that stops inside the header can leave a header mixed from both, with another dtype. Proved: nothing outside is changed (C110_outside, C110_crash_outside); a begin_1d or begin_2d array cannot be opened from when its header is written until finish, whatever was there before (C110_unfinished_partial; for finish itself see C47 and C66, which do not need a fresh stream); C110_nd_partial says exactly what a begin_nd session leaves once its header is written."
  },
  {
   "property": "C111",
   "status": "partial",
   "theorems": [
    "Npyz.Props.C111_save_partial",
    "Npyz.Props.C111_push_partial",
    "Npyz.Props.C111_long_string",
    "Npyz.Props.C111_violated"
   ],
   "note": "Violated (C111_violated): a String that is too long for a `<Un` dtype is written up to its n-th character before the error is noticed, the failed push is counted, and dropping the writer completes the header: saving [\"ab\", \"toolong\"] as `<U3` fails and leaves the array [\"ab\", \"too\"]; C111_long_string proves this for all strings: the failed session leaves exactly the file of a session with the shortened string. Also: too many values for a given shape leave the first ones; items without bytes. Proved: for all other element types and any nesting of them (Prompt, Spec/Prompt.lean), if one value cannot be stored or there are too few values, the file is rejected whatever it is read as, for callers that stop at the first error (C111_save_partial) and callers that carry on and finish (C111_push_partial; finish may succeed then, see C45)."
  },
  {
   "property": "C112",
   "status": "proved",
   "theorems": [
    "Npyz.Props.C112_unchanged_iff",
    "Npyz.Props.C112_second_time",
    "Npyz.Props.C112_numbers"
   ],
   "note": "C112_unchanged_iff for whole files, C112_second_time for saving again (if that succeeds: an ArrayVec<u8, N> that came back longer than it was, C34, may not fit any more), C112_numbers for types without strings."
  },
  {
   "property": "C113",
   "status": "partial",
   "theorems": [
    "Npyz.Props.C113_complete",
    "Npyz.Props.C113_incomplete_partial",
    "Npyz.Props.C113_violated"
   ],
   "note": "C113_complete holds without restriction. C113_violated: a string too long for <Un leaves a complete array with a shortened string (as in C111), and a failed begin_nd with an empty shape leaves a readable empty array, because the header is written before the element type is checked (C48). C113_incomplete_partial: damaged otherwise, for items with at least one byte, types that notice early (Prompt), no more values than elements, and shapes with elements or a fitting type."
  },
  {
   "property": "C114",
   "status": "proved",
   "theorems": [
    "Npyz.Props.C114_open",
    "Npyz.Props.C114_next",
    "Npyz.Props.C114_pipe"
   ],
   "note": "Reading is modelled as read_exact requests (Model/IO); a request waits when fewer bytes than requested have arrived. Buffering streams that the user puts around a pipe are outside of the model."
  },
  {
   "property": "C115",
   "status": "proved",
   "theorems": [
    "Npyz.Props.C115_descr",
    "Npyz.Props.C115_message",
    "Npyz.Props.C115_reader",
    "Npyz.Props.C115_writer",
    "Npyz.Props.C115_scalar"
   ],
   "note": "The Debug form of field names is modelled exactly for printable ASCII and without the escapes of Rust for other characters (Model/Serialize debugStr)."
  },
  {
   "property": "C116",
   "status": "partial",
   "theorems": [
    "Npyz.Props.C116_seeks_partial",
    "Npyz.Props.C116_shifted",
    "Npyz.Props.C116_violated"
   ],
   "note": "Violated: next counts the element before reading it and seek_to seeks relative to where the source is, so after one failed read the reader returns wrong elements for good (C116_violated on a concrete file, C116_shifted for every file and element type: each later call returns the element before the one it should). C116_seeks_partial: if only seeks fail, the property holds, and failed calls are as if they had not been made."
  },
  {
   "property": "C117",
   "status": "proved",
   "theorems": [
    "Npyz.Props.C117_nth",
    "Npyz.Props.C117_count",
    "Npyz.Props.C117_last",
    "Npyz.Props.C117_window"
   ],
   "note": "nth, count, last and take are the default methods of Iterator (read.rs implements only next and size_hint); Model/Iter.lean models their bodies. C117_count also says what happens if the count does not fit in usize."
  },
  {
   "property": "C118",
   "status": "proved",
   "theorems": [
    "Npyz.Props.C118_open",
    "Npyz.Props.C118_history",
    "Npyz.Props.C118_read_file",
    "Npyz.Props.C118_transparent"
   ],
   "note": "Model/BufRead.lean models std's BufReader (read_exact with its buffer bypass, and seek, which drops the buffer and corrects the offset). C118_open, C118_history and C118_read_file allow a failing source; C118_transparent is the case without failures."
  },
  {
   "property": "C119",
   "status": "proved",
   "theorems": [
    "Npyz.Props.C119_open",
    "Npyz.Props.C119_read_file",
    "Npyz.Props.C119_history",
    "Npyz.Props.C119_complete",
    "Npyz.Props.C119_eventually",
    "Npyz.Props.C119_buffered_writer",
    "Npyz.Props.C119_buffered_moments"
   ],
   "note": "Model/Live.lean models a file whose contents at each read call are given by a schedule, with a BufReader of any capacity (0: none) around it; WProg.throughBuf is the writer's side behind a BufWriter (C119_buffered_writer, C119_buffered_moments). C119_open and C119_read_file hold for every schedule, even one that shows later moments before earlier ones; C119_complete needs moments in order. The structure Watched lists the hypotheses: a successful session on a new file (or at the end of one), a reader that can read the dtype, header and items below the address space."
  },
  {
   "property": "C120",
   "status": "partial",
   "theorems": [
    "Npyz.Props.C120_implements_partial",
    "Npyz.Props.C120_violated_name",
    "Npyz.Props.C120_violated_type",
    "Npyz.Props.C120_violated_module",
    "Npyz.Props.C120_violated_generic",
    "Npyz.Props.C120_refused"
   ],
   "note": "Violated: derive(Deserialize) does not compile for a struct called R or with a field of a type called R (the type parameter of the generated read_one), derive(Serialize) not with a field of a type called W; neither for generic structs, nor for types from a user's module called io (C120_violated_*). C120_implements_partial is the exact condition. C120_refused: what is refused."
  },
  {
   "property": "C121",
   "status": "proved",
   "theorems": [
    "Npyz.Props.C121_open",
    "Npyz.Props.C121_read_file",
    "Npyz.Props.C121_history",
    "Npyz.Props.C121_sessions",
    "Npyz.Props.C121_moments",
    "Npyz.Props.C121_undisturbed"
   ],
   "note": "Full. C121_open, C121_read_file and C121_history for all sessions that fail or are given up; C121_sessions: recording the contents changes nothing in the session. For element types of size 0 (which take no bytes) C121_read_file is about sessions in which all values are pushed. C121_moments and C121_undisturbed: no content that the file has between two bytes of a session is left out."
  },
  {
   "property": "C122",
   "status": "proved",
   "theorems": [
    "Npyz.Props.C122_understood",
    "Npyz.Props.C122_formats",
    "Npyz.Props.C122_fortran"
   ],
   "note": "Full. ScipySaved (Spec/Scipy.lean) says what SciPy writes, with the headers of Spec/Numpy.lean. C122_understood for Sparse::from_npz, C122_formats for the reader of each format, C122_fortran for data in Fortran order."
  },
  {
   "property": "C123",
   "status": "partial",
   "theorems": [
    "Npyz.Props.C123_loads_partial",
    "Npyz.Props.C123_exact_partial",
    "Npyz.Props.C123_refused",
    "Npyz.Props.C123_violated"
   ],
   "note": "Violated for DIA matrices whose number of elements per diagonal is not the number of diagonals: the data is written with its two dimensions exchanged, and SciPy's constructor refuses it (C123_refused for all of them, whatever matrix one hopes for; C123_violated is a witness). C123_loads_partial and C123_exact_partial prove the property for COO, CSR, CSC, BSR and the remaining DIA matrices, without NUL characters and repeated names in record fields (see C74). The requirements of SciPy on the values of indices are not part of ScipyLoads."
  },
  {
   "property": "C124",
   "status": "partial",
   "theorems": [
    "Npyz.Props.C124_understood",
    "Npyz.Props.C124_listed",
    "Npyz.Props.C124_same_bytes_partial",
    "Npyz.Props.C124_written_partial",
    "Npyz.Props.C124_shadowed",
    "Npyz.Props.C124_violated"
   ],
   "note": "Violated: if arrays x and x.npy are written, NumPy returns the first one under both names (C124_shadowed for all such archives, C124_violated). C124_understood for archives of NumPy with ASCII headers (others: C73); C124_listed for all archives; C124_written_partial and C124_same_bytes_partial for names without NULs for which there is no other array such that this one is called like its file. NumPy's side is Spec/NumpyNpz.lean."
  },
  {
   "property": "C125",
   "status": "partial",
   "theorems": [
    "Npyz.Props.C125_loaded_partial",
    "Npyz.Props.C125_strides",
    "Npyz.Props.C125_three",
    "Npyz.Props.C125_round_trip",
    "Npyz.Props.C125_layout",
    "Npyz.Props.C125_refused",
    "Npyz.Props.C125_violated"
   ],
   "note": "Violated: an empty array of shape (0, 2^63) is read, but the conversion panics (C125_refused for all such files), and on 32-bit machines shape (0, 2^32+1) silently becomes (0, 1) (C125_violated). C125_loaded_partial: all files with elements, and all empty ones whose shape fits; C125_strides: the same element that read_at finds through the strides; C125_three; C125_round_trip for all sound views; C125_layout. What ndarray does is modelled after ndarray 0.15 in Model/Ndarray.lean."
  },
  {
   "property": "C126",
   "status": "partial",
   "theorems": [
    "Npyz.Props.C126_until_partial",
    "Npyz.Props.C126_shifted",
    "Npyz.Props.C126_violated"
   ],
   "note": "Violated for every element type: C126_shifted gives what every later history returns, for every place at which the file ended; C126_violated: read_at(1), repeated when the file is complete, returns element 0. C126_until_partial: all calls up to the first failing one are right, for every way of growing."
  },
  {
   "property": "C127",
   "status": "partial",
   "theorems": [
    "Npyz.Props.C127_bounded_partial",
    "Npyz.Props.C127_deep",
    "Npyz.Props.C127_violated"
   ],
   "note": "Violated: C127_deep gives, for every depth up to 2^28, a file with 11 bytes for each level that is opened without an error; C127_violated: 100001 levels in 1.1 MB. C127_bounded_partial: the nesting is less than the length of the header. The size of the stack is not modelled; one call for each level can be seen in the code."
  },
  {
   "property": "C128",
   "status": "partial",
   "theorems": [
    "Npyz.Props.C128_opened",
    "Npyz.Props.C128_opens_partial",
    "Npyz.Props.C128_one_meaning",
    "Npyz.Props.C128_refused",
    "Npyz.Props.C128_too_large",
    "Npyz.Props.C128_opens_unchecked",
    "Npyz.Props.C128_panics",
    "Npyz.Props.C128_opens_checked",
    "Npyz.Props.C128_violated"
   ],
   "note": "Violated, by C128_violated: without overflow checks a file with 2^64 elements is opened (and has none), with them a file with dimensions 2^32, 2^32, 0 panics. C128_opened is one direction in full; C128_opens_partial the other if the nonzero dimensions multiply to less than 2^64; C128_opens_unchecked (without overflow checks), C128_opens_checked and C128_panics (with them) say exactly what happens for all shapes; C128_refused and C128_too_large that the rest is refused, C128_one_meaning that a file says one thing."
  },
  {
   "property": "C129",
   "status": "proved",
   "theorems": [
    "Npyz.Props.C129_slice",
    "Npyz.Props.C129_stacked",
    "Npyz.Props.C129_appended"
   ],
   "note": "C129_slice is reading, C129_stacked and C129_appended are writing. Slices of the other axes are not contiguous; their elements are read one by one (C82_by_index)."
  },
  {
   "property": "C130",
   "status": "partial",
   "theorems": [
    "Npyz.Props.C130_entangled",
    "Npyz.Props.C130_turns_partial",
    "Npyz.Props.C130_disturbed",
    "Npyz.Props.C130_violated"
   ],
   "note": "Violated, by C130_violated: seek_to moves the position relative to where it is, so after one reader has read an element, read_at(0) of the other returns the second element without an error (C130_disturbed: in every array of two elements or more). C130_entangled says exactly what every interleaving returns up to the first failure; C130_turns_partial that the results are right if the readers take turns and go back to the first element at the end of each turn."
  },
  {
   "property": "C131",
   "status": "partial",
   "theorems": [
    "Npyz.Props.C131_known_partial",
    "Npyz.Props.C131_reads_back_partial",
    "Npyz.Props.C131_lost",
    "Npyz.Props.C131_violated"
   ],
   "note": "Violated, by C131_violated and, for every array that begin_1d or begin_2d can write to an ordinary file, by C131_lost: finish returns Ok, but the shape went to the end of the file instead of into the header (twice, because drop writes it again), and the file cannot be opened. C131_known_partial and C131_reads_back_partial: it holds with begin_nd, which never seeks."
  },
  {
   "property": "C132",
   "status": "partial",
   "theorems": [
    "Npyz.Props.C132_passed",
    "Npyz.Props.C132_no_items",
    "Npyz.Props.C132_library_partial",
    "Npyz.Props.C132_written",
    "Npyz.Props.C132_violated"
   ],
   "note": "Violated for writing, by C132_violated and, for every element type of the user whose writer accepts the dtype, by C132_written: begin_nd does not look for objects in the dtype as data does, so the items are written and finish returns Ok, but no type can read them. C132_passed and C132_no_items prove the rest for all types; C132_library_partial: the types of the library refuse such dtypes for writing."
  },
  {
   "property": "C133",
   "status": "proved",
   "theorems": [
    "Npyz.Props.C133_arrays",
    "Npyz.Props.C133_complex",
    "Npyz.Props.C133_written"
   ],
   "note": "The data of the two files are compared as bytes; items larger than isize::MAX are left out (they cannot be in memory)."
  }
 ]
}