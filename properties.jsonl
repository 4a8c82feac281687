{"id": "C01", "title": "Type strings survive printing and re-parsing", "statement": "For every type string value the API can hand out, printing it with Display and parsing the result with FromStr gives back the identical value (endianness, type character, size and time units).", "quantifier": "every TypeStr obtainable from FromStr or from a default dtype: all endiannesses, type characters, u64 sizes and time units", "why_tests_cant": "2^64 sizes for each of four type characters with unrestricted size; only sampling is possible", "anchors": ["src/type_str.rs::TypeStr::fmt", "src/type_str.rs::TypeStr::from_str", "src/type_str.rs::TypeStr::validate"]}
{"id": "C02", "title": "The type-string parser accepts exactly the documented language and never panics", "statement": "For every string, parsing a TypeStr terminates with Ok or Err and never panics; it returns Ok(t) exactly when the string is an endianness character, a type character, the size digits (absent exactly for 'O') and optional [units], whose numeric size fits u64 and whose parts satisfy the validity table; t then holds exactly those parts.", "quantifier": "every Unicode string, including multi-byte first characters, empty strings, overlong digit runs", "why_tests_cant": "the input space is all strings; the dangerous inputs (multi-byte characters near the byte-length guard, 20+ digit sizes) are a thin subset", "anchors": ["src/type_str.rs::TypeStr::from_str", "src/type_str.rs::TypeStr::validate", "src/type_str.rs::TypeChar::from_char", "src/type_str.rs::Endianness::from_char", "src/type_str.rs::TimeUnits::from_str"]}
{"id": "C03", "title": "Parsing normalises a type string to a canonical spelling", "statement": "If a string parses as a type string, its Display output parses to the same value, and Display after parse is idempotent; the canonical spelling differs from the input only by dropping leading zeros of the size and by writing 'S' for 'a'.", "quantifier": "every accepted input string", "why_tests_cant": "infinitely many accepted spellings (leading zeros, alias characters)", "anchors": ["src/type_str.rs::TypeStr::fmt", "src/type_str.rs::TypeStr::from_str"]}
{"id": "C04", "title": "Accepted type strings obey the documented size, byte-order and unit rules", "statement": "Every TypeStr obtained by parsing has a size allowed for its type character, an explicit byte order whenever the type is a multi-byte number, time or Unicode string, and time units exactly when it is 'm' or 'M'.", "quantifier": "every accepted input string", "why_tests_cant": "all combinations of characters, sizes and units cannot be enumerated", "anchors": ["src/type_str.rs::TypeChar::valid_sizes", "src/type_str.rs::TypeChar::requires_endianness", "src/type_str.rs::TypeChar::has_units", "src/type_str.rs::TypeStr::validate"]}
{"id": "C05", "title": "Size in bytes of a dtype is exact or refused", "statement": "num_bytes of a TypeStr or DType is Some(n) exactly when the dtype contains no Object member and all intermediate sizes fit usize, and then n is the mathematically exact packed size (4 bytes per U code unit, array length times element size, sum over record fields); it never wraps.", "quantifier": "every dtype tree of any depth, any u64 sizes and array lengths, 32- and 64-bit usize", "why_tests_cant": "overflow boundaries depend on arbitrary nesting and 64-bit factors", "anchors": ["src/type_str.rs::TypeStr::num_bytes", "src/header.rs::DType::num_bytes"]}
{"id": "C06", "title": "DType descriptions survive printing and re-parsing", "statement": "For every dtype whose outermost layer is not an array, parsing the text produced by descr() gives back an equal DType, for arbitrary Unicode field names (quotes, backslashes, newlines included), nested records and nested arrays of any shape.", "quantifier": "every DType tree with valid type strings and any field names and array lengths", "why_tests_cant": "unbounded trees and arbitrary field-name characters; escaping bugs hide in rare characters", "anchors": ["src/header.rs::DType::descr", "src/header.rs::DType::from_descr", "src/header.rs::DType::parse", "src/header.rs::PyUtf8StringLiteral"]}
{"id": "C07", "title": "Header write/read round trip", "statement": "For every dtype (outermost not an array), shape and order whose header text fits the chosen version's length field, reading the header written by the writer gives back the same dtype, shape and order.", "quantifier": "every dtype, every shape of u64 dimensions whose nonzero dimensions multiply to less than 2^64, both orders, every writer start state, every reading machine where the item size fits usize", "why_tests_cant": "all dtypes and shapes; escaping, padding and length fields interact", "anchors": ["src/write.rs::write_header", "src/write.rs::create_dict", "src/write.rs::determine_required_version_and_pad_header", "src/header.rs::read_header", "src/read.rs::NpyHeader::from_reader"]}
{"id": "C08", "title": "Data is 64-byte aligned and the header length field is truthful", "statement": "Every header the writer emits has total length a multiple of 64, ends with a newline, and its length field equals the number of bytes up to the start of the data.", "quantifier": "every dtype, shape and order for which writing a header succeeds", "why_tests_cant": "alignment depends on text length modulo 64 for unboundedly many texts", "anchors": ["src/write.rs::determine_required_version_and_pad_header", "src/write.rs::write_header", "src/header.rs::VersionProps"]}
{"id": "C09", "title": "Header version is the smallest that can represent the header", "statement": "The writer uses version 1.0 for ASCII headers that fit 16 bits of length, 2.0 for longer ASCII headers, and 3.0 exactly when the header contains non-ASCII characters; writing a header with fewer than 2^32 bytes of text always succeeds.", "quantifier": "every dtype, shape and order", "why_tests_cant": "needs headers longer than 65535 bytes at specific boundaries for arbitrary dtypes", "anchors": ["src/write.rs::determine_required_version_and_pad_header", "src/write.rs::write_header", "src/header.rs::get_minimal_version"]}
{"id": "C10", "title": "Reading a header consumes exactly the header", "statement": "If reading a header from a stream succeeds, exactly the bytes of the preamble plus the declared header length have been consumed, whatever follows; the outcome does not depend on the bytes after the header.", "quantifier": "every byte stream", "why_tests_cant": "all byte streams", "anchors": ["src/header.rs::read_header", "src/header.rs::read_pre_header", "src/header.rs::read_magic_and_version", "src/read.rs::NpyHeader::from_reader"]}
{"id": "C11", "title": "Streams that are not NPY files, or of an unknown version, are rejected", "statement": "A stream that is shorter than the 8 bytes of magic and version, or does not start with the magic bytes, or carries a version other than 1.0, 2.0 or 3.0, yields an InvalidData error and no header. A stream with a good preamble that ends before the declared end of its header yields UnexpectedEof.", "quantifier": "every byte stream", "why_tests_cant": "all byte streams", "anchors": ["src/header.rs::read_magic_and_version", "src/header.rs::get_version_props", "src/header.rs::read_pre_header"]}
{"id": "C12", "title": "Header dictionaries are read independently of key order and extra keys", "statement": "Interpreting a header dictionary depends only on the values of the keys descr, fortran_order and shape (last one wins on duplicates), not on entry order or additional string keys; a missing or ill-typed entry or a non-string key is an error.", "quantifier": "every parsed header dictionary and every permutation of its entries", "why_tests_cant": "all permutations and extra keys", "anchors": ["src/read.rs::NpyHeader::read_and_interpret"]}
{"id": "C13", "title": "Shapes are read exactly or rejected", "statement": "A shape entry is accepted exactly when it is a tuple or list of integers in 0..2^64-1, and the resulting dimensions are those integers in order; negative, oversized or non-integer entries are errors.", "quantifier": "every Python literal in the shape position", "why_tests_cant": "unbounded integers and literal structures", "anchors": ["src/header.rs::convert_value_to_shape_integer", "src/header.rs::convert_value_to_shape"]}
{"id": "C14", "title": "Interpreting untrusted headers never panics", "statement": "Reading a header from an arbitrary byte stream returns Ok or Err and never panics.", "quantifier": "every byte stream, with and without overflow checks", "why_tests_cant": "adversarial inputs; the failing ones are a measure-zero subset", "anchors": ["src/read.rs::NpyHeader::from_reader", "src/read.rs::NpyHeader::from_parts", "src/read.rs::strides", "src/read.rs::prefix_products"]}
{"id": "C15", "title": "Array length is the product of the shape", "statement": "The number of elements reported for a file is the product of its dimensions (1 for a zero-dimensional array, 0 if any dimension is 0).", "quantifier": "every shape whose product is below 2^64", "why_tests_cant": "all shapes", "anchors": ["src/read.rs::NpyHeader::from_parts", "src/read.rs::NpyHeader::len", "src/read.rs::NpyReader::total_len"]}
{"id": "C16", "title": "Strides address every element exactly once, in the declared order", "statement": "With the reported strides, sum(index_k*stride_k) maps the multi-indices of the shape one-to-one onto 0..len-1; in C order it is the lexicographic rank of the index, in Fortran order the rank of the reversed index.", "quantifier": "every shape (any dimension count) whose product is below 2^64, both orders", "why_tests_cant": "unbounded dimension counts and sizes", "anchors": ["src/read.rs::strides", "src/read.rs::prefix_products", "src/read.rs::NpyHeader::strides"]}
{"id": "C17", "title": "Iteration yields exactly the promised number of items", "statement": "A reader over an array of n elements yields Some exactly n times (values or errors) and None forever after; at each point len() and size_hint equal the number of items still to come and never underflow.", "quantifier": "every header, every data stream and every interleaving of next, seek_to and read_at", "why_tests_cant": "all histories of calls", "anchors": ["src/read.rs::NpyReader::next", "src/read.rs::NpyReader::len", "src/read.rs::NpyReader::size_hint", "src/read.rs::NpyReader::seek_to", "src/read.rs::NpyReader::read_at"]}
{"id": "C18", "title": "Random access agrees with sequential reading", "statement": "After any history of successful next, seek_to and read_at calls, read_at(i) and seek_to(i)+next return element i, the same value sequential reading gives at position i.", "quantifier": "every history of operations, every index, every element type and dtype", "why_tests_cant": "unbounded operation histories", "anchors": ["src/read.rs::NpyReader::seek_to", "src/read.rs::NpyReader::read_at", "src/read.rs::NpyReader::next"]}
{"id": "C19", "title": "Random access stays correct after an element fails to decode", "statement": "After any history of calls, including calls that returned an error because an element was malformed, read_at(i) still returns element i.", "quantifier": "every history including failed reads, every element type", "why_tests_cant": "needs specific corrupt elements at specific points in a history", "anchors": ["src/read.rs::NpyReader::next", "src/read.rs::NpyReader::seek_to", "src/serialize/slice.rs::CodePointReader", "src/serialize/slice.rs::CharReader"]}
{"id": "C20", "title": "Out-of-range random access is refused without disturbing the reader", "statement": "seek_to(i) panics exactly when i > total_len and read_at(i) exactly when i >= total_len; in both cases nothing was read or moved.", "quantifier": "every reader state and every u64 index", "why_tests_cant": "all u64 indices at all states", "anchors": ["src/read.rs::NpyReader::seek_to", "src/read.rs::NpyReader::read_at"]}
{"id": "C21", "title": "Truncated data is never returned as a complete array", "statement": "into_vec returns Ok only with exactly len elements, all decoded from the first len*item_size bytes; if fewer data bytes are present it returns Err, and extra trailing bytes are left unread.", "quantifier": "every header, every element type and every data length", "why_tests_cant": "every truncation point of every file", "anchors": ["src/read.rs::NpyFile::into_vec", "src/read.rs::NpyReader::next"]}
{"id": "C22", "title": "Results do not depend on how the source delivers bytes", "statement": "Header parsing and element decoding give the same result for every way an io::Read may split the same bytes into short reads and interruptions.", "quantifier": "every byte stream and every schedule of short reads and Interrupted errors", "why_tests_cant": "all schedules", "anchors": ["src/header.rs::read_header", "src/serialize/traits.rs::TypeRead::read_one"]}
{"id": "C23", "title": "A source error is reported, never turned into data", "statement": "If the underlying reader fails at any byte offset before the last byte needed, the header or element read returns an error; values returned before the failure are the same as without the failure.", "quantifier": "every failing offset, every header and element type", "why_tests_cant": "all fault points", "anchors": ["src/header.rs::read_header", "src/read.rs::NpyReader::next"]}
{"id": "C24", "title": "Pickled arrays are refused", "statement": "data and try_data return an error for a file whose dtype contains an Object member anywhere, for every requested element type, and no Rust element type can be read from or written to such a dtype.", "quantifier": "every dtype tree containing Object, every element type", "why_tests_cant": "unbounded nesting", "anchors": ["src/read.rs::NpyFile::data", "src/read.rs::NpyFile::try_data", "src/read.rs::forbid_pickle", "src/header.rs::DType::uses_pickled_array"]}
{"id": "C25", "title": "A failed try_data gives the file back unchanged", "statement": "When try_data fails because of a dtype mismatch the returned file has the same header and unread stream, so a later attempt with another element type behaves as if the first never happened.", "quantifier": "every file and every sequence of failed attempts", "why_tests_cant": "all sequences of attempts", "anchors": ["src/read.rs::NpyFile::try_data", "src/read.rs::NpyFile::data"]}
{"id": "C26", "title": "Every element occupies exactly the dtype's byte size", "statement": "For every supported pairing of element type and dtype, a successful write emits exactly num_bytes(dtype) bytes and a successful read consumes exactly num_bytes(dtype) bytes.", "quantifier": "every element type (primitives, complex, byte and Unicode strings, arrays, structs, nested), every accepted dtype, every value", "why_tests_cant": "unbounded type/dtype nesting", "anchors": ["src/serialize/primitive.rs::PrimitiveReader", "src/serialize/primitive.rs::PrimitiveWriter", "src/serialize/slice.rs::BytesReader", "src/serialize/slice.rs::BytesWriter", "src/serialize/array_member.rs::ArrayReader", "derive/src/lib.rs::impl_npy_serialize"]}
{"id": "C27", "title": "Numeric values round-trip bit-exactly in both byte orders", "statement": "Writing an integer, float (as bits), bool or complex and reading it back with the same dtype gives the identical bits, for every dtype endianness accepted.", "quantifier": "every value of every primitive type, both dtype byte orders, both machine byte orders", "why_tests_cant": "2^64 values per type; big-endian machines are not available to the tests", "anchors": ["src/serialize/primitive.rs::PrimitiveReader", "src/serialize/primitive.rs::PrimitiveWriter", "src/serialize/primitive.rs::PrimitiveReadWrite"]}
{"id": "C28", "title": "Numeric bytes on disk do not depend on the machine", "statement": "The bytes written for a number under a '<' ('>') dtype are its little- (big-) endian two's-complement/IEEE byte sequence on every machine; complex numbers store the real part first.", "quantifier": "every value, both machine byte orders", "why_tests_cant": "needs machines of the other endianness and all values", "anchors": ["src/serialize/primitive.rs::PrimitiveWriter::new", "src/serialize/primitive.rs::PrimitiveReadWrite::primitive_write_one", "src/type_str.rs::Endianness::requires_swap", "src/type_str.rs::Endianness::of_machine"]}
{"id": "C29", "title": "Booleans are decoded strictly", "statement": "Reading a bool succeeds exactly on bytes 0 and 1.", "quantifier": "every byte", "why_tests_cant": "states the complete decoding table", "anchors": ["src/serialize/primitive.rs::PrimitiveReadWrite for bool"]}
{"id": "C30", "title": "Byte strings: padding, trimming and refusal", "statement": "Writing bytes b to |SN succeeds exactly if len(b) <= N and reading back gives b without trailing NULs; writing to |VN succeeds exactly if len(b) = N and reading back gives b unchanged.", "quantifier": "every byte sequence and every N", "why_tests_cant": "all byte sequences and sizes", "anchors": ["src/serialize/slice.rs::BytesReader", "src/serialize/slice.rs::BytesWriter", "src/serialize/slice.rs::truncate_trailing_nuls"]}
{"id": "C31", "title": "Unicode strings: padding, trimming and refusal", "statement": "Writing a String to <UN or >UN succeeds exactly if it has at most N code points and reading back gives it without trailing NULs; out-of-range code units and surrogates are refused when decoding to String, and only out-of-range ones when decoding to u32.", "quantifier": "every string, every N, both byte orders", "why_tests_cant": "all strings and sizes", "anchors": ["src/serialize/slice.rs::CodePointReader", "src/serialize/slice.rs::CharReader", "src/serialize/slice.rs::Utf32StrWriter", "src/serialize/slice.rs::Utf32WithSurrogatesWriter", "src/serialize/slice.rs::validate_type_u_code_unit"]}
{"id": "C32", "title": "UTF-8 strings in |SN round-trip", "statement": "Writing a String to |SN succeeds exactly if its UTF-8 encoding has at most N bytes and reading gives it back without trailing NULs; reading invalid UTF-8 is an error.", "quantifier": "every string and every N", "why_tests_cant": "all strings and sizes", "anchors": ["src/serialize/slice.rs::Utf8StringReader", "src/serialize/slice.rs::Utf8StrWriter"]}
{"id": "C33", "title": "Fixed-size bytes are exact", "statement": "FixedSizeBytes<N> is accepted exactly for |VN and round-trips all N bytes unchanged, trailing NULs included.", "quantifier": "every N and every byte sequence", "why_tests_cant": "all sizes and contents", "anchors": ["src/serialize/slice.rs::FixedSizeBytes"]}
{"id": "C34", "title": "Bounded strings read a prefix and never panic", "statement": "ArrayVec and ArrayString readers return the longest prefix of the stored item that fits the capacity (at a character boundary for ArrayString) without trailing padding, and consume the whole item.", "quantifier": "every capacity, item size and stored bytes", "why_tests_cant": "all size/capacity combinations", "anchors": ["src/serialize/slice.rs::ArrayVecBytesReader", "src/serialize/slice.rs::ArrayStringReader", "src/serialize/slice.rs::ArrayVec"]}
{"id": "C35", "title": "Fixed-length arrays round-trip element by element", "statement": "[T; N] is accepted exactly for an array dtype of length N whose element dtype T accepts; elements are stored consecutively in index order and round-trip.", "quantifier": "every N, every T and every value", "why_tests_cant": "unbounded lengths and nesting", "anchors": ["src/serialize/array_member.rs::array_inner_dtype", "src/serialize/array_member.rs::ArrayReader", "src/serialize/array_member.rs::ArrayWriter"]}
{"id": "C36", "title": "Derived structs are matched by field names in order", "statement": "A derived struct accepts a dtype exactly if it is a record with the same field names in the same order and each field type accepts its dtype; fields are stored consecutively in that order and round-trip.", "quantifier": "every struct type, every record dtype", "why_tests_cant": "unbounded field lists and nesting", "anchors": ["derive/src/lib.rs::FieldDTypes::extract", "derive/src/lib.rs::impl_npy_serialize", "derive/src/lib.rs::impl_npy_deserialize"]}
{"id": "C37", "title": "Supported type/dtype pairs match the documentation", "statement": "For every scalar Rust type and every type string the reader and writer accept exactly the pairs listed in the type matchup documentation, and reading and writing accept the same pairs for the types that support both.", "quantifier": "every scalar element type and every valid type string", "why_tests_cant": "all sizes and type characters", "anchors": ["src/type_matchup_docs.rs::type_matchup_docs", "src/serialize/primitive.rs::expect_scalar_dtype"]}
{"id": "C38", "title": "Default dtypes always work", "statement": "For every type with a default dtype, that dtype is valid, and both the reader and writer of the type accept it; computing it never panics.", "quantifier": "every auto-serializable type, nested arbitrarily, on both machine byte orders", "why_tests_cant": "unbounded nesting", "anchors": ["src/serialize/traits.rs::AutoSerialize", "src/type_str.rs::TypeStr::with_auto_endianness", "derive/src/lib.rs::impl_npy_auto_serialize"]}
{"id": "C39", "title": "Whole-file round trip, known shape", "statement": "Writing the product-of-shape many values with begin_nd and finishing yields a file that reads back with the same shape, order, dtype and values.", "quantifier": "every element type, accepted dtype, shape, order and value list", "why_tests_cant": "all values and shapes", "anchors": ["src/write.rs::WriterBuilder::begin_nd", "src/write.rs::NpyWriter::push", "src/write.rs::NpyWriter::finish", "src/read.rs::NpyFile::into_vec"]}
{"id": "C40", "title": "Whole-file round trip, automatic shapes", "statement": "Writing any number of values with begin_1d (or a multiple of record_len with begin_2d) and finishing yields a file whose shape is [n] (or [n/record_len, record_len], reversed for Fortran order) and whose values are the pushed ones.", "quantifier": "every element type, dtype, value list, record_len > 0 and order", "why_tests_cant": "all lengths", "anchors": ["src/write.rs::begin_1d", "src/write.rs::begin_2d", "src/write.rs::shape_suffix_1d", "src/write.rs::shape_suffix_2d", "src/write.rs::NpyWriter::finish"]}
{"id": "C41", "title": "Finishing only rewrites the shape placeholder", "statement": "Finishing a begin_1d or begin_2d file changes only bytes of the shape placeholder inside the header, keeps the header length, leaves all bytes written before the start position untouched and leaves the stream positioned after the last item.", "quantifier": "every starting offset and prior contents of a seekable stream, every number of items up to 2^64-1", "why_tests_cant": "all offsets and counts", "anchors": ["src/write.rs::NpyWriter::finish_", "src/write.rs::filler_space_padding", "src/write.rs::FILLER_FOR_UNKNOWN_SIZE"]}
{"id": "C42", "title": "Finish is idempotent with the implicit drop", "statement": "finish followed by the drop it implies, and drop alone, leave the same bytes and position as a single finish.", "quantifier": "every writer state", "why_tests_cant": "all states", "anchors": ["src/write.rs::NpyWriter::finish", "src/write.rs::NpyWriter::drop", "src/write.rs::NpyWriter::finish_"]}
{"id": "C43", "title": "Wrong item counts are reported", "statement": "For begin_nd finish returns an error exactly if the number of pushed items differs from the product of the shape; for begin_2d with record_len > 0 exactly if it is not a multiple of record_len.", "quantifier": "every shape and item count", "why_tests_cant": "all counts", "anchors": ["src/write.rs::NpyWriter::finish_"]}
{"id": "C44", "title": "begin_2d tolerates a zero record length", "statement": "Finishing or dropping a begin_2d writer never panics, for any record length.", "quantifier": "every record_len and item count", "why_tests_cant": "boundary value", "anchors": ["src/write.rs::NpyWriter::finish_", "src/write.rs::begin_2d"]}
{"id": "C45", "title": "Items whose push failed are not counted", "statement": "After pushes some of which returned an error, the header written by finish counts only the successfully written items.", "quantifier": "every history of successful and failed pushes", "why_tests_cant": "histories with failures", "anchors": ["src/write.rs::NpyWriter::push", "src/write.rs::NpyWriter::finish_"]}
{"id": "C46", "title": "A crash before finishing never leaves a readable but wrong file", "statement": "If writing stops after any number of bytes before finish on a begin_1d or begin_2d file, reading what is there is an error; for begin_nd, into_vec of the truncated file is an error unless all items were written.", "quantifier": "every crash point (byte offset), every dtype and items", "why_tests_cant": "all crash points", "anchors": ["src/write.rs::FILLER_FOR_UNKNOWN_SIZE", "src/write.rs::create_dict", "src/read.rs::NpyHeader::from_reader"]}
{"id": "C47", "title": "A torn header rewrite is detected", "statement": "If the placeholder rewrite in finish of a begin_1d file is cut after any number of bytes, reading the file either fails or reports the correct shape.", "quantifier": "every item count and every cut point", "why_tests_cant": "all cut points and counts", "anchors": ["src/write.rs::NpyWriter::finish_", "src/write.rs::shape_suffix_1d"]}
{"id": "C48", "title": "Incompatible dtypes are refused before any item is written", "statement": "Starting a writer whose element type does not support the dtype returns an error and leaves the output stream untouched.", "quantifier": "every unsupported pair", "why_tests_cant": "all pairs", "anchors": ["src/write.rs::NpyWriter::_begin"]}
{"id": "C49", "title": "Builder calls commute", "statement": "The file produced does not depend on the order of the dtype, shape, order and writer calls on the builder; of repeated calls the last wins.", "quantifier": "every sequence of builder calls", "why_tests_cant": "all sequences", "anchors": ["src/write.rs::WriterBuilder", "src/write.rs::WithDType", "src/write.rs::WithShape", "src/write.rs::WithWriter", "src/write.rs::WriteOptions"]}
{"id": "C50", "title": "Element i lives at header length plus i times item size", "statement": "In a file written by the crate the encoding of element i occupies exactly the item_size bytes at data_start + i*item_size.", "quantifier": "every file and index", "why_tests_cant": "all indices", "anchors": ["src/write.rs::NpyWriter::push"]}
{"id": "C51", "title": "NPZ member names round-trip", "statement": "array_name_from_file_name(file_name_from_array_name(name)) is Some(name) exactly when name contains no NUL; distinct array names get distinct file names.", "quantifier": "every name", "why_tests_cant": "all strings", "anchors": ["src/npz.rs::array_name_from_file_name", "src/npz.rs::file_name_from_array_name", "src/npz.rs::file_name_from_index"]}
{"id": "C52", "title": "NPZ arrays are found under the names they were written with", "statement": "Every array written under a NUL-free name is listed by array_names and returned by by_name with its contents; other names give None; every listed name can be looked up.", "quantifier": "every sequence of written names and arrays", "why_tests_cant": "all archives", "anchors": ["src/npz_feature.rs::NpzArchive::by_name", "src/npz_feature.rs::NpzArchive::array_names", "src/npz_feature.rs::NpzWriter::array"]}
{"id": "C53", "title": "Sparse matrices round-trip", "statement": "Writing any COO, CSR, CSC, BSR or DIA matrix whose parts satisfy the writer's checks and reading it back gives the same matrix, for every u64 index value.", "quantifier": "every matrix of each format, every data element type", "why_tests_cant": "all matrices", "anchors": ["src/sparse.rs::Coo", "src/sparse.rs::Csr", "src/sparse.rs::Csc", "src/sparse.rs::Bsr", "src/sparse.rs::Dia", "src/sparse.rs::Sparse::from_npz"]}
{"id": "C54", "title": "Sparse index arrays use 32 bits exactly when possible", "statement": "Index arrays are stored as i32 exactly when every index fits i32, else i64, and read back to the same values either way.", "quantifier": "every list of u64 or i64 indices", "why_tests_cant": "all index lists", "anchors": ["src/sparse.rs::write_indices", "src/sparse.rs::most_negative_and_positive", "src/sparse.rs::extract_indices"]}
{"id": "C55", "title": "Sparse files of another format are rejected", "statement": "Reading a matrix of one format from an archive of another format is an error, and Sparse::from_npz returns the format that was written.", "quantifier": "every matrix and every requested format", "why_tests_cant": "all matrices", "anchors": ["src/sparse.rs::expect_format", "src/sparse.rs::Sparse::from_npz"]}
{"id": "C56", "title": "DIA data is stored with its documented shape", "statement": "The data array of a written DIA matrix has shape [number of offsets, length], as documented and as scipy expects.", "quantifier": "every DIA matrix", "why_tests_cant": "all matrices", "anchors": ["src/sparse.rs::Dia::write_npz"]}
{"id": "C57", "title": "Malformed sparse archives never panic", "statement": "Reading a sparse matrix from an archive of arbitrary well-formed arrays returns Ok or Err, never a panic.", "quantifier": "every archive", "why_tests_cant": "all archives", "anchors": ["src/sparse.rs::from_npz", "src/sparse.rs::extract_scalar", "src/sparse.rs::extract_nd"]}
{"id": "C58", "title": "Legacy NpyData agrees with the streaming reader", "statement": "NpyData::from_bytes followed by get(i), to_vec or iteration returns the same elements as the streaming reader; get(i) is None exactly when i >= len; after exhaustion the iterator's size_hint is 0.", "quantifier": "every file and index", "why_tests_cant": "all indices and files", "anchors": ["src/read.rs::NpyData::from_bytes", "src/read.rs::NpyData::get", "src/read.rs::NpyData::to_vec", "src/read.rs::IntoIter::size_hint"]}
{"id": "C59", "title": "Item size of an opened file is exact", "statement": "The item size used for an opened file is the exact number of bytes of its dtype (none for dtypes with Objects); a dtype whose size does not fit usize is refused with an InvalidData error when the header is read.", "quantifier": "every byte stream accepted as a header, every dtype, 32- and 64-bit machines", "why_tests_cant": "all dtypes with nested arrays and records, sizes near the limits of usize", "anchors": ["src/read.rs::NpyHeader::from_parts", "src/header.rs::DType::num_bytes"]}
{"id": "C60", "title": "Documented default dtypes exist", "statement": "Every scalar type for which the documentation lists an AutoSerialize dtype has a default dtype, and the others have none.", "quantifier": "every supported scalar element type, with any length or capacity parameter", "why_tests_cant": "const generic parameters range over all lengths; a missing impl is a compile error that a test cannot even express", "anchors": ["src/type_matchup_docs.rs", "src/serialize/traits.rs::AutoSerialize", "src/serialize/slice.rs::FixedSizeBytes"]}
{"id": "C61", "title": "Incomplete BSR matrices are never written", "statement": "Writing a BSR matrix panics, as documented, whenever data.len() is not indices.len() * blocksize[0] * blocksize[1].", "quantifier": "every BSR matrix, 32- and 64-bit machines, with and without overflow checks", "why_tests_cant": "the failure needs a product that wraps around in a build without overflow checks", "anchors": ["src/sparse.rs::BsrBase::write_npz"]}
{"id": "C62", "title": "Sparse readers return exactly what the archive contains", "statement": "from_npz succeeds with a matrix if and only if the archive has all the arrays of that format with the right number of axes (C order where the data has several), element types and format name, and the parts of the matrix are the contents of those arrays.", "quantifier": "every archive, every format and element type", "why_tests_cant": "all archives, including ones written by other programs", "anchors": ["src/sparse.rs::from_npz", "src/sparse.rs::extract_and_check_ndim", "src/sparse.rs::extract_nd", "src/sparse.rs::extract_indices"]}
{"id": "C63", "title": "Short and interrupted writes do not matter", "statement": "Writing an array to a sink that accepts arbitrary parts of each write call and returns Interrupted arbitrarily often has the same result, and leaves the same bytes and position, as writing to a sink that takes everything at once.", "quantifier": "every schedule of short writes and interruptions, every dtype, shape kind, element type and value sequence", "why_tests_cant": "all schedules", "anchors": ["src/write.rs::NpyWriter", "src/write.rs::write_header", "src/write.rs::to_file_1d"]}
{"id": "C64", "title": "Success means the file is complete", "statement": "Whatever I/O errors the sink returns and on whatever calls: if a writing session (start, extend, finish) returns Ok, the contents of the sink are those a reliable sink would have; otherwise the result is the one on a reliable sink or an error that the sink returned.", "quantifier": "every schedule of errors, including errors during the implicit second finish when the writer is dropped", "why_tests_cant": "all failure points", "anchors": ["src/write.rs::NpyWriter::finish", "src/write.rs::NpyWriter::finish_", "src/write.rs::Drop for NpyWriter"]}
{"id": "C65", "title": "After a successful finish the sink is behind the array", "statement": "If finish returns Ok, the position of the sink is directly behind the last item, so that further data can be appended.", "quantifier": "every schedule of errors", "why_tests_cant": "needs an error in the drop that follows a successful finish", "anchors": ["src/write.rs::NpyWriter::finish", "src/write.rs::Drop for NpyWriter"]}
{"id": "C66", "title": "A torn header rewrite of a two-dimensional file is detected", "statement": "If finishing a file started with begin_2d stops after any number of bytes of the rewritten header, then opening the file is an error, or the file is complete and reads back as what was written.", "quantifier": "every byte at which the rewrite stops, every item count and record length (in C order below 10^16), both orders, every dtype and every list of items", "why_tests_cant": "every crash point of every shape; at 10^16 items in C order it is false, which no test would reach", "anchors": ["src/write.rs::NpyWriter::finish_", "src/write.rs::create_dict", "src/read.rs::NpyHeader::from_reader"]}
{"id": "C67", "title": "Arrays written one after the other are read back one after the other", "statement": "If several arrays, of any element types, shapes and orders, are written one after the other to one stream, then opening and reading an array leaves the source exactly where the next array starts, so that all of them are read back in order, ending where writing stopped. What was in the stream before is not changed.", "quantifier": "every list of arrays, every start position, every pair of writing and reading machines", "why_tests_cant": "unbounded number and kinds of arrays; an off-by-one in any header or item size only shows in the array behind it", "anchors": ["src/read.rs::NpyFile::new", "src/read.rs::NpyFile::into_vec", "src/write.rs::NpyWriter::finish"]}
{"id": "C68", "title": "Grouping of push and extend does not matter", "statement": "Any sequence of push and extend calls, up to the first error, has the result of one extend of all the values, and leaves the same stream and the same state of the writer.", "quantifier": "every sequence of calls, every stream, failing or not", "why_tests_cant": "all groupings and all failure points", "anchors": ["src/write.rs::NpyWriter::push", "src/write.rs::NpyWriter::extend"]}
{"id": "C69", "title": "Files do not depend on the machine", "statement": "Writing the same values with the same dtype leaves the same bytes on every machine, whatever its byte order, word size and overflow checking; a file that two machines can open has the same header on both, and the same elements if both can read them.", "quantifier": "every pair of machines, every dtype, shape and list of values, every byte stream for reading", "why_tests_cant": "tests run on one machine", "anchors": ["src/write.rs::NpyWriter", "src/write.rs::write_header", "src/read.rs::NpyHeader::from_reader", "src/read.rs::NpyFile::into_vec"]}
{"id": "C70", "title": "An I/O error never leaves a file that reads as something else", "statement": "If a stream fails during a writing session, at any call and any number of times, and accepts any part of the data in between, then of the file it leaves (on a fresh stream) opening is an error, or reading the elements is an error, or it is the complete file with the dtype, shape, order and values that were to be written. In particular the header that the writer still tries to complete when it is dropped after an error never makes a shorter array of the items written so far.", "quantifier": "every schedule of short writes, interruptions and errors, every dtype, order, kind of shape and list of values, every reading machine", "why_tests_cant": "every failing call in every session combined with every failure while the writer is dropped", "anchors": ["src/write.rs::NpyWriter::finish_", "src/write.rs::NpyWriter::drop", "src/write.rs::NpyWriter::extend", "src/read.rs::NpyFile::new"]}
{"id": "C71", "title": "The error for an unsuitable dtype tells the truth", "statement": "When an element type refuses a dtype, for reading or writing, the error is true of some corresponding place inside the two: it says a scalar, array or record was needed only where the type needs one and the dtype has another kind, and names that dtype; it gives as expected array length and field names those of the Rust type and as found those of the dtype; it blames a type string only if that one does not suit the type, and a size only if it does not fit in the machine's usize.", "quantifier": "every element type, dtype and machine, at every depth of arrays and records", "why_tests_cant": "a test of a message compares one text; no test looks at which of the lists is which", "anchors": ["src/serialize/traits.rs::DTypeError", "derive/src/lib.rs::gen_field_dtypes_struct", "src/serialize/array_member.rs", "src/serialize/mod.rs::expect_scalar_dtype", "src/read.rs::NpyFile::data"]}
{"id": "C72", "title": "The error for a bad type string can be displayed and tells the truth", "statement": "Displaying the error of a refused type string never panics, and the message is true: it complains about the form only if the text does not have the form of a type string, about the number only if it exceeds u64, about byte order, size or units only if the text has the form of a type string that breaks that rule; the valid sizes it lists are exactly the valid ones, and it says missing units or unexpected units as is the case.", "quantifier": "every text", "why_tests_cant": "all texts; the message is built with an unwrap that a test of one bad text does not reach", "anchors": ["src/type_str.rs::ParseTypeStrError", "src/type_str.rs::TypeStr::validate", "src/header.rs::convert_string_to_type_str"]}
{"id": "C73", "title": "Headers written by NumPy are understood", "statement": "A header as NumPy writes it (any of the three versions, in the encoding of that version) is read with the dtype, shape and memory order NumPy meant, and the data behind it is left unread.", "quantifier": "every dtype NumPy describes with type strings, records and sub-arrays, with any field names and nesting; every order and shape whose product fits u64; every amount of padding; every version", "why_tests_cant": "all dtypes, names and shapes; the test files in the repository contain a few ASCII headers", "anchors": ["src/header.rs::read_header", "src/read.rs::NpyHeader::from_reader", "src/header.rs::DType::from_descr"]}
{"id": "C74", "title": "NumPy can read every file that was written", "statement": "After a session that ended without an error, NumPy reads the file as an array of the dtype, order and shape that were written; likewise for a header written on its own.", "quantifier": "every dtype, order, shape and number of items, with any field names; any start position in the stream", "why_tests_cant": "all dtypes and names; tests do not run NumPy on generated dtypes", "anchors": ["src/write.rs::NpyWriter", "src/write.rs::write_header", "src/header.rs::DType::descr", "src/write.rs::determine_required_version_and_pad_header"]}
{"id": "C75", "title": "Buffering changes nothing", "statement": "Writing through a BufWriter of any capacity, as to_file_1d does, has the same result and leaves the same contents and stream position as writing to the stream itself, provided no call of the stream fails; short writes and interruptions do not matter.", "quantifier": "every capacity, element type, dtype, order, kind of shape, list of values, initial stream, and every schedule of short writes and interruptions", "why_tests_cant": "all capacities and all ways in which items, header and rewritten shape fall on buffer boundaries", "anchors": ["src/write.rs::to_file_1d", "src/write.rs::OutFile", "src/write.rs::NpyWriter", "src/write.rs::maybe_seek::MaybeSeek"]}
{"id": "C76", "title": "Success through a buffered writer means the file is complete", "statement": "If a session through a BufWriter reports success, the stream already holds everything: nothing in it depends on whether the BufWriter can still empty its buffer when it is dropped. If the stream fails, the result is that error or the result on a reliable stream.", "quantifier": "every capacity, schedule of errors, short writes and interruptions, dtype, values and shape kind; every part of the buffer that is lost", "why_tests_cant": "every point at which a stream can fail, including while buffers are emptied on drop, where errors are dropped silently", "anchors": ["src/write.rs::NpyWriter::finish", "src/write.rs::NpyWriter::finish_", "src/write.rs::to_file_1d"]}
{"id": "C77", "title": "Losing a write buffer never leaves a file that reads as something else", "statement": "If the process dies, or the stream fails, while a file is written through a BufWriter, so that any part of what is in the buffer is lost: before finish a begin_1d or begin_2d file cannot be opened, and in every case opening the file that is left (on a fresh stream) is an error, or reading its elements is an error, or it is the complete file with the dtype, shape, order and values that were to be written.", "quantifier": "every capacity, schedule, and number of bytes of the buffer that still reach the file; every dtype, order, shape kind and values as in C70", "why_tests_cant": "all crash points combined with all buffer states", "anchors": ["src/write.rs::NpyWriter", "src/write.rs::to_file_1d", "src/write.rs::OutFile"]}
{"id": "C78", "title": "Reading elements of an untrusted file never panics", "statement": "Asking an opened file for its elements as any type, reading them one by one in any history of calls, and reading all of them at once return a value or an error; they do not panic, whatever the bytes of the file are and however the source behaves.", "quantifier": "every byte stream, element type, history of calls, and schedule of short reads, interruptions and errors", "why_tests_cant": "all byte streams; the panicking file declares an item of 2^63 bytes", "anchors": ["src/read.rs::NpyFile::data", "src/read.rs::NpyFile::try_data", "src/read.rs::NpyFile::into_vec", "src/read.rs::NpyReader::next", "src/serialize/slice.rs::BytesReader::read_one"]}
{"id": "C79", "title": "Arrays of known shape can be written to streams that cannot seek", "statement": "Writing with begin_nd, and write_header_only, never seek: on a stream without Seek they have the same result and write the same bytes as on one with Seek, appended in one piece at the position of the stream, whatever errors the stream has.", "quantifier": "every element type, dtype, order, shape, list of values and initial stream; every schedule of short writes, interruptions and errors", "why_tests_cant": "the seeking wrapper panics (unreachable!) on a stream without Seek; that no path reaches it has to hold for every outcome of every call, including errors and drops", "anchors": ["src/write.rs::WriterBuilder::begin_nd", "src/write.rs::WriterBuilder::write_header_only", "src/write.rs::maybe_seek::MaybeSeek", "src/write.rs::NpyWriter::finish_", "src/write.rs::NpyWriter::drop"]}
{"id": "C80", "title": "Writing never panics", "statement": "Starting a writer, pushing any values, finishing and dropping return a value or an error, and do not panic, whatever errors the stream has, buffered or not.", "quantifier": "every element type, dtype, order, kind of shape, list of values, initial stream, schedule of errors and buffer capacity", "why_tests_cant": "all combinations of dtypes, shapes and failures; a panic in finish is followed by a second one in drop, which aborts the process", "anchors": ["src/write.rs::NpyWriter", "src/write.rs::write_header", "src/write.rs::create_dict", "src/serialize/slice.rs::BytesWriter::write_one"]}
{"id": "C81", "title": "Descriptions of dtypes are read exactly or rejected", "statement": "The `descr` entry of a header, and the argument of `DType::parse`, is accepted exactly if it is a string spelling a valid type string or a list of fields, each field being a list or tuple `(name, descr)` or `(name, descr, shape)` with a shape of u64 integers; the resulting dtype is the one described (fields in order, names unchanged, first dimension outermost). Every other value is an InvalidData error, never a panic, and no value has two meanings. The dtype, shape and order of an opened file are those its header describes.", "quantifier": "all parsed Python values of any nesting depth and length, all literal parsers", "why_tests_cant": "descriptions nest without bound and the accepted forms (list or tuple, two or three items, empty shapes) combine freely; tests try a handful", "anchors": ["src/header.rs: DType::from_descr, DType::parse, convert_list_to_record_fields, convert_tuple_to_record_field, convert_value_to_shape", "src/read.rs: NpyHeader::read_and_interpret"]}
{"id": "C82", "title": "An element is found by its index through the strides", "statement": "If an n-dimensional array is written element by element in NumPy's storage order for the chosen order (last index fastest in C order, first index fastest in Fortran order) with begin_nd, begin_1d or begin_2d, then in the file read back, read_at(sum(index_k * strides()[k])) returns the array's value at that index, for every index of the shape and after any history of next, seek_to and read_at calls. In any file, the k-th value of a sequential pass belongs to the k-th index of the storage order.", "quantifier": "every number of dimensions, shape, order, element type and dtype, every array, every index and every prior history of in-range calls, for files of fewer than 2^63 bytes and elements", "why_tests_cant": "indices, shapes, orders and histories multiply without bound; the tests check one or two fixed small shapes", "anchors": ["src/read.rs::NpyHeader::from_parts", "src/read.rs::strides", "src/read.rs::NpyFile::strides", "src/read.rs::NpyReader::read_at", "src/write.rs::WriterBuilder::begin_nd", "src/write.rs::WriterBuilder::begin_2d"]}
{"id": "C83", "title": "The memory requested for reading is bounded by the file", "statement": "Opening a file and reading its elements never asks for a buffer larger than the file itself, so that a small untrusted file cannot make the program run out of memory.", "quantifier": "every byte sequence, literal parser, machine, element type and dtype", "why_tests_cant": "the claim is about every byte sequence; the dangerous ones are those whose length fields and item sizes lie about what follows", "anchors": ["src/header.rs::read_header", "src/serialize/slice.rs::BytesReader::read_one", "src/serialize/slice.rs::ArrayVecBytesReader::read_one", "src/read.rs::NpyFile::new"]}
{"id": "C84", "title": "Arrays of user-defined element types are read item by item", "statement": "If a user implements Deserialize for their own type, with a read_one that consumes one item of the array and returns its value, or an error if the item is malformed or incomplete, then every history of next, seek_to and read_at, and collecting the reader, gives the elements where they are in the file. The implementation is asked exactly once, with the dtype of the file, and files with Python objects are refused. Whatever read_one does, iterating runs it once per element of the array, each time where the last run stopped, and then ends; short reads and interruptions make no difference.", "quantifier": "every implementation of Deserialize whose read_one reads by read_exact, every file, history of calls and schedule of short reads and interruptions", "why_tests_cant": "all implementations of a trait by users; all histories and sources", "anchors": ["src/serialize/traits.rs::Deserialize", "src/serialize/traits.rs::TypeRead", "src/read.rs::NpyFile::data", "src/read.rs::NpyReader::next", "src/read.rs::NpyReader::seek_to", "src/read.rs::NpyReader::read_at"]}
{"id": "C85", "title": "Arrays of user-defined element types are written as the user's bytes", "statement": "If a user implements Serialize for their own type, with a write_one that only appends bytes, and a session of begin_nd, begin_1d or begin_2d with it succeeds, then the number of values fits the shape, the file opens with the dtype, shape and order it was given, and after the header come exactly the bytes that the write_one calls appended, in order and with nothing between them. If read_one of the user's Deserialize decodes what write_one writes, and both agree with the item size of the dtype, the values come back.", "quantifier": "every implementation of Serialize whose write_one only appends, every dtype, order, shape hint, list of values and stream position", "why_tests_cant": "all implementations of a trait by users; all values and shapes", "anchors": ["src/serialize/traits.rs::Serialize", "src/serialize/traits.rs::TypeWrite", "src/write.rs::NpyWriter::push", "src/write.rs::NpyWriter::extend", "src/write.rs::NpyWriter::finish"]}
{"id": "C86", "title": "Files of user-defined element types are never wrong after a failure", "statement": "Writing an array of a user-defined element type to a fresh stream leaves nothing that can be misread, if write_one appends one item per value: if the process dies at any byte, if any calls of the stream fail, or if any part of a buffer in between is lost, then opening what is left is an error, or it has fewer items than its header says, or it is the complete file; so reading it back gives an error or the values written. Short writes and interruptions change nothing, errors of the stream are reported, and a session that reports success has written everything, whatever write_one does.", "quantifier": "every implementation of Serialize, list of values, shape hint, crash point, schedule of failures, buffer capacity and part of the buffer that is lost", "why_tests_cant": "all implementations of a trait by users; every crash point and schedule of failures", "anchors": ["src/serialize/traits.rs::Serialize", "src/serialize/traits.rs::TypeWrite", "src/write.rs::NpyWriter::push", "src/write.rs::NpyWriter::finish", "src/write.rs::NpyWriter::drop"]}
{"id": "C87", "title": "Pointers to values are stored as the values", "statement": "Arrays of references, boxes, Rc, Arc or Cow are written exactly as arrays of what they point to: the same dtypes are accepted with the same errors, every session has the same results, the same bytes in the stream and the same calls of it, whatever the stream does, and a process that dies leaves the same bytes.", "quantifier": "every element type (also user-defined), pointer type, dtype, shape hint, list of values, stream with any failures, number of calls before a crash", "why_tests_cant": "all element types and all failures of all streams; a test compares two files", "anchors": ["src/serialize/traits.rs::impl_serialize_by_deref", "src/serialize/traits.rs::TypeWriteViaDeref"]}
{"id": "C88", "title": "Arrays and structs of user-defined element types work", "statement": "If element types read and write items, then so do arrays [T; N], derived structs and pointers made of them, nested to any depth: they accept exactly the array dtypes of their length and the record dtypes with their field names in order whose parts the parts accept, among them the default dtypes; they store the parts one after the other without padding; if values of the parts come back from their bytes, so do the values of the whole, and an array of them comes back from its file, on any other machine; and readers of them return the right items at every history of calls.", "quantifier": "every implementation of Serialize and Deserialize that reads or writes one item at a time, array length, list of field names, nesting, dtype, value, machine, in-range history of calls", "why_tests_cant": "all implementations of traits by users, all nestings", "anchors": ["src/serialize/array_member.rs::ArrayReader", "src/serialize/array_member.rs::ArrayWriter", "derive/src/lib.rs::impl_npy_serialize", "derive/src/lib.rs::impl_npy_deserialize", "derive/src/lib.rs::impl_npy_auto_serialize", "derive/src/lib.rs::gen_field_dtypes_struct"]}
{"id": "C89", "title": "A header can be used apart from its data", "statement": "Opening a file is the same as reading its header with NpyHeader::from_reader and combining it with the rest of the stream by with_header, on every stream whatever it does, and into_inner gives back the stream at the first byte behind the header. A header may be kept and combined with another stream: data readers of the same header return the same for every history of in-range calls, up to and including the first item that does not decode, if the streams have the same data in front of them, wherever it is in them; so a file may be cut behind its header. Conversely write_header_only followed by the bytes of the items leaves the same file as begin_nd, push and finish, and fails when begin_nd fails.", "quantifier": "every file, stream, element type (also user-defined), history of in-range calls, cut, list of values, shape", "why_tests_cant": "all streams and all histories of calls; tests reuse one header with one file", "anchors": ["src/read.rs::NpyHeader::from_reader", "src/read.rs::NpyFile::with_header", "src/read.rs::NpyFile::into_inner", "src/write.rs::WriterBuilder::write_header_only"]}
{"id": "C90", "title": "Different arrays make different files", "statement": "Two sessions that succeed and leave the same bytes wrote the same array: the same dtype, order, shape and values (strings up to their padding), even if they ran on different machines or one of them was told the shape and the other found it out.", "quantifier": "every pair of sessions with the same element type (also user-defined with values that come back from their bytes), dtypes, orders, shape hints, lists of values, machines, positions in the stream", "why_tests_cant": "all pairs of arrays", "anchors": ["src/write.rs::NpyWriter::finish", "src/write.rs::write_header", "src/serialize/traits.rs::Serialize"]}
{"id": "C91", "title": "Sparse matrices are never read wrongly from a failing archive", "statement": "Whatever goes wrong with the stream under an npz archive while a sparse matrix is read (short reads, interruptions, failing reads, members that cannot be opened because of an I/O error or an invalid or unsupported entry), `from_npz` returns what it returns on a reliable stream, or an error that was met; never another matrix, and never a panic caused by the failure. The same holds for opening one array by name. Short reads and interruptions alone make no difference.", "quantifier": "all archives, element types, formats, machines, and all schedules of short reads, interruptions and failures of reading and of opening members", "why_tests_cant": "a matrix is read in about thirty reads from five members; failures can occur at each of them, in any combination with short reads", "anchors": ["src/sparse.rs: from_npz, extract_scalar, extract_indices, extract_signed_indices, extract_1d, extract_nd", "src/npz_feature.rs: NpzArchive::by_name"]}
{"id": "C92", "title": "A sparse matrix that is reported as written is complete", "statement": "If `write_npz` reports success on a stream that accepts only parts of the data, interrupts and fails at arbitrary calls, then all members are in the archive, complete and the same as on a reliable stream, so that the matrix is read back. Otherwise the result is the one on a reliable stream or an error that was met, and the archive has the members as far as they were written: some complete, and perhaps a part of the next. The same holds for a single array in an archive.", "quantifier": "all matrices of all formats and element types, all archives written so far, all schedules of short writes, interruptions and failures of writing, flushing and starting members", "why_tests_cant": "`write_npz` never calls `finish` and ignores what happens when the writers are dropped; that nothing is lost must hold for every point of failure", "anchors": ["src/sparse.rs: write_npz, write_format, write_shape, write_indices, write_data", "src/npz_feature.rs: NpzWriter::array", "src/write.rs: NpyWriter::extend, Drop for NpyWriter"]}
{"id": "C93", "title": "Failures while a sparse matrix is written are reported", "statement": "An error of the stream that `write_npz` meets is returned to the caller.", "quantifier": "all matrices of all formats and element types, all schedules of short writes, interruptions and failures", "why_tests_cant": "the error must be reported whichever call it hits", "anchors": ["src/sparse.rs: write_format, write_shape, write_indices, write_data", "src/write.rs: Drop for NpyWriter"]}
{"id": "C94", "title": "Copying an array through the library preserves it byte for byte", "statement": "Take any .npy file, written by any program, that opens and whose elements all read as an element type without fixed capacity (or whose capacity is large enough for the items of the dtype, and exactly their size for raw data). Writing the values that were read with the dtype and order of the file and its shape (or begin_1d or begin_2d with the same resulting shape) succeeds, if the header is of at most 65525 bytes, and gives a file with the same dtype, order, shape and number of elements, exactly the same bytes of data and the same values. If the first file was written by this library, writing the values again in the same way gives the same file, byte for byte. This holds also for strings, where the values that come back may differ from the ones first written by trailing NULs, for NaNs, and for all nested arrays and structs, and when reading and writing take place on different machines.", "quantifier": "all element types of the library, nested to any depth, all dtypes, all files, all values, orders, shapes and kinds of file, all machines", "why_tests_cant": "that no byte pattern of an item is normalised on the way (NaN payloads, padding, embedded NULs, byte orders, characters) is a statement about all byte strings and all nestings of types", "anchors": ["src/serialize/traits.rs: TypeRead::read_one, TypeWrite::write_one, Deserialize::reader, Serialize::writer", "src/read.rs: NpyFile::new, NpyFile::into_vec", "src/write.rs: NpyWriter::extend, NpyWriter::finish, WriterBuilder"]}
{"id": "C95", "title": "The element types for text and bytes agree with each other", "statement": "A program may choose any of the element types for strings. Items of a unicode dtype ('<U5') read as String exactly when they read as Vec<char>, with the same characters, and whatever they read as there they read as Vec<u32> as the code points of the same characters; Vec<u32> rejects no item the other two accept. Items of a byte string dtype ('|S5') read as String exactly when the bytes read by Vec<u8> are the UTF-8 of that string. [u8; N] and FixedSizeBytes read from raw data what Vec<u8> reads. The types of fixed capacity (ArrayVec<u8, N>, ArrayString<N>, ArrayVec<char, N>, ArrayVec<u32, N>) read what the growing types read whenever the capacity is at least the length of the dtype. In the other direction, the same characters give the same bytes and are refused in the same cases whichever of these types they are written from.", "quantifier": "all dtypes of these kinds, lengths and byte orders, all contents of an item, all values, all capacities, all machines", "why_tests_cant": "agreement of ten separately written codecs on every byte string (surrogates, trailing and embedded NULs, invalid UTF-8, both byte orders) is not settled by examples", "anchors": ["src/serialize/slice.rs: impls of Deserialize, Serialize for String, Vec<char>, Vec<u32>, Vec<u8>, FixedSizeBytes, ArrayVec, ArrayString"]}
{"id": "C96", "title": "The version, padding and final newline of a header do not matter", "statement": "Two files whose headers hold the same dictionary text, but which differ in the format version (1.0, 2.0, 3.0, as far as the length of the text can be stored in each), in the number of spaces around the dictionary, or in the presence of the final newline, open with the same dtype, shape and order, and then read the same elements from the same data. In particular a header need not be padded to a multiple of 64 bytes and need not end in a newline to be read.", "quantifier": "all dictionary texts, all versions, all paddings, all data behind the header, all element types, all machines, every parser that agrees with the reference parser", "why_tests_cant": "there are unboundedly many framings of a header, and other writers choose others than this crate", "anchors": ["src/header.rs: read_header, parse_header_text_to_io_result, VersionProps", "src/read.rs: NpyHeader::from_reader, NpyFile::new"]}
{"id": "C97", "title": "Every member of every element has a fixed place in the file and can be overwritten there", "statement": "The place of each part of each element, a field of a struct or a member of an array to any depth, can be computed from the dtype alone: behind the header, the elements before it, and the fields and members before it. A file that was written holds the encoding of the part there. In a file of any origin whose elements could be read, the part can be read on its own from there. And overwriting the bytes there in place, by bytes that read as a value of the part's type, gives a file that opens with the same header and reads as before, with this part replaced and every other part of every element unchanged.", "quantifier": "all element types and dtypes, any nesting, all elements and parts, all files that read, all new values, all machines", "why_tests_cant": "memory-mapped access and in-place updates by other programs rely on the layout for every nesting of structs and arrays and at every index", "anchors": ["src/serialize/array_member.rs: impls of Serialize, Deserialize for [T; N]", "derive/src/lib.rs", "src/read.rs: NpyFile::new, into_vec", "src/write.rs: NpyWriter"]}
{"id": "C98", "title": "Shape and order are labels: reshaping and transposing do not touch the data", "statement": "The elements of any file, in the order in which they are read, can be saved again with any other shape of as many elements and with either order: the data of the new file is the same byte for byte, and the same elements are read from it one after the other. If the shape is reversed and the order exchanged, the new file holds the transpose: its strides are those of the old file in reverse, and whatever is at an index of the one is at the reversed index of the other, after any history of calls. The position of an index and of the reversed index agree for any two files labelled like this, even where the product of the dimensions overflows. begin_1d and begin_2d with the same argument write the transposed shape when given the other order.", "quantifier": "all files of all origins, all element types that can be read and written, all shapes, both orders, all indices, all histories of calls, all machines", "why_tests_cant": "index arithmetic for every number of axes and every length of each", "anchors": ["src/read.rs: NpyHeader::strides, strides, NpyReader::read_at, into_vec", "src/write.rs: begin_nd, begin_1d, begin_2d, NpyWriter"]}
{"id": "C99", "title": "A sparse matrix that can be read can be written again", "statement": "Whatever sparse matrix is read from an archive, of any origin and format, can be written to another archive, and reading that gives the same matrix, also on another machine.", "quantifier": "all archives, all sparse formats, all element types of fixed size, all states of the archive written to, all machines", "why_tests_cant": "every archive that the reader accepts, including unusual ones, for every element type", "anchors": ["src/sparse.rs: Sparse::from_npz, Sparse::write_npz and those of Coo, Csr, Csc, Dia, Bsr"]}
{"id": "C100", "title": "The kind of an error tells truncated files from damaged ones", "statement": "Opening and reading files fails only with the error kinds UnexpectedEof and InvalidData, as long as the source itself does not fail. UnexpectedEof means that the file is shorter than its header announces: the header is incomplete, or the file ends before the last element. Every proper beginning of a readable file that has at least eight bytes is refused with UnexpectedEof, unless nothing of the array is missing. InvalidData, for a file of at least eight bytes, means that the same error is returned whatever is appended to the file. Fewer than eight bytes are refused with InvalidData. The same holds for single elements, after any history of calls.", "quantifier": "all byte strings, all their beginnings and continuations, all element types, all histories of calls, all machines, every literal parser", "why_tests_cant": "all files and all points at which they may be cut", "anchors": ["src/header.rs: read_header, read_pre_header, read_magic_and_version", "src/read.rs: NpyFile::new, into_vec, NpyReader::next", "src/serialize/traits.rs: TypeRead::read_one"]}
{"id": "C101", "title": "The number of elements read from a file is bounded by its size", "statement": "However the header of a file reads, the number of elements that reading it produces is at most the number of its bytes; a small file cannot make a program collect a huge vector.", "quantifier": "all byte strings, all element types, all machines", "why_tests_cant": "all files, in particular those made to exhaust the memory of the reader", "anchors": ["src/read.rs: NpyFile::into_vec, NpyReader::next", "src/read.rs: NpyHeader::from_parts"]}
{"id": "C102", "title": "Byte order is a matter of representation only", "statement": "Exchanging < and > in a dtype, in all fields and nested arrays, and reversing the bytes of every machine word of the items (each half of a complex number and each character of a unicode string is a word, byte strings have none) changes nothing for the user: the same element types are accepted, items are read as the same values or rejected alike, values are written as the reversed bytes or refused alike, and whole files hold the same elements, on machines of either byte order.", "quantifier": "all dtypes, all element types including nested arrays and structs, all items, all values, all files, all pairs of machines", "why_tests_cant": "all dtypes, all nestings, all values, and machines of the other byte order", "anchors": ["src/type_str.rs: Endianness", "src/serialize/primitive.rs: PrimitiveReader, PrimitiveWriter, ComplexReader, ComplexWriter", "src/serialize/slice.rs", "src/serialize/array_member.rs", "derive/src/lib.rs: impl_npy_serialize, impl_npy_deserialize"]}
{"id": "C103", "title": "The dtype determines the element type", "statement": "If a file can be read as one element type, every other element type is refused with an error, so data are never taken for something else; only the types for strings and bytes are interchangeable with each other, at the same places of the same arrays and structs. What is written in the default dtype of a type can be read as this type only.", "quantifier": "all dtypes, all pairs of element types including nested arrays and structs, all machines", "why_tests_cant": "all pairs of types and all dtypes", "anchors": ["src/serialize/traits.rs: Deserialize::reader", "src/serialize/primitive.rs: impl_primitive_serializable, impl_complex_serializable", "src/serialize/array_member.rs: array_inner_dtype", "src/serialize/slice.rs: impls of Deserialize", "derive/src/lib.rs: impl_npy_deserialize"]}
{"id": "C104", "title": "Damage to one item stays in this item", "statement": "If two files differ only in the bytes of item i, both have the same header; if both are read completely, all elements except the i-th are equal; if reading the second fails, then because the changed item holds no value of the element type, and read_at still gives all other elements as before.", "quantifier": "all files, all changes to the bytes of one item, all element types, all indices", "why_tests_cant": "all files and all ways to damage an item", "anchors": ["src/read.rs: NpyFile::into_vec, NpyReader::next, NpyReader::read_at"]}
{"id": "C105", "title": "Numbers and bytes are always readable", "statement": "For element types without booleans and text, i.e. integers, floats, complex numbers, byte strings and raw bytes, and arrays and structs of them, collecting the elements of an opened file succeeds if and only if all its data are there, whatever their bytes are.", "quantifier": "all files, all such element types, all data", "why_tests_cant": "all data bytes", "anchors": ["src/read.rs: NpyFile::into_vec", "src/serialize/primitive.rs: impl_primitive_serializable, impl_complex_serializable", "src/serialize/slice.rs: impls of Deserialize"]}
{"id": "C106", "title": "The order of the members of an archive and other members do not matter", "statement": "Archives with the same members in another order, no name twice, list the same arrays and give the same result for every array. A sparse matrix depends only on the members scipy stores it in: what else is in the archive and where does not change the result, which may also be an error.", "quantifier": "all archives, all names, all element types", "why_tests_cant": "all archives, all orders, all further members", "anchors": ["src/npz_feature.rs: NpzArchive::by_name, NpzArchive::array_names", "src/sparse.rs: from_npz of all formats"]}
{"id": "C107", "title": "A bigger machine reads and writes everything a smaller one does", "statement": "Going from one machine to another whose usize is at least as wide, and which checks arithmetic overflow only if the first does, of any byte order: every file that opens there opens here with the same header, every element type accepted for a dtype is still accepted, a file that could be read gives the same elements, and an array that could be saved is saved as the same bytes.", "quantifier": "all pairs of such machines, all files, all element types and dtypes, all values", "why_tests_cant": "tests run on one machine and one build profile", "anchors": ["src/read.rs: NpyFile::new, NpyFile::into_vec", "src/write.rs: NpyWriter", "src/header.rs: DType::num_bytes", "src/read.rs: NpyHeader::from_parts", "src/serialize/traits.rs: TypeRead, TypeWrite"]}
{"id": "C108", "title": "The numbers in a sparse archive are taken at their value", "statement": "The shape, indices, index pointers and offsets of a sparse matrix that was read are the whole numbers that its archive stores, whether as 32-bit or as 64-bit integers.", "quantifier": "all archives, all five formats, all machines", "why_tests_cant": "all stored numbers, including negative and very large ones", "anchors": ["src/sparse.rs: extract_indices, extract_usize_indices, extract_shape, from_npz of all formats"]}
{"id": "C109", "title": "The derive macros work whatever the fields are called", "statement": "For a struct with any names of fields, the derived implementations compile; they use the names without the prefix of raw identifiers in the dtype, write the fields in the order of declaration, and put the value read for each field into that field.", "quantifier": "all lists of distinct field names, raw or not", "why_tests_cant": "a test has one list of names; names can clash with those that the generated code uses", "anchors": ["derive/src/lib.rs: impl_npy_serialize, impl_npy_deserialize, FieldData::extract, unraw"]}
{"id": "C110", "title": "Writing over old data is all or nothing", "statement": "When an array is written over existing contents of a stream (an old file that was not truncated, an array inside of a bigger file), nothing outside of the array is changed; and if writing stops after any number of bytes, then reading the array is an error or gives the old array or the new one.", "quantifier": "all old contents, all crash points, all dtypes, shapes, orders and values", "why_tests_cant": "all crash points combined with all old contents", "anchors": ["src/write.rs: NpyWriter, write_header, FILLER_FOR_UNKNOWN_SIZE", "src/read.rs: NpyFile::new"]}
{"id": "C111", "title": "An array that could not be saved cannot be read", "statement": "If writing the values of an array fails because one of them cannot be stored in the dtype, or because their number does not fit the shape, then what is left of the array when the writer is gone does not look like a complete array: opening it or reading its elements is an error.", "quantifier": "all element types, dtypes, shapes, orders and sequences of values, whichever of them cannot be stored; callers that stop at the first error and callers that carry on", "why_tests_cant": "every position of the failing value, every element type and every nesting of arrays and records decides how many bytes are written before the error", "anchors": ["src/write.rs: NpyWriter::push, NpyWriter::extend, NpyWriter::finish, Drop for NpyWriter", "src/serialize/slice.rs: Utf32StrWriter", "src/read.rs: NpyFile::into_vec"]}
{"id": "C112", "title": "Which values come back unchanged, and that losses do not repeat", "statement": "When values were saved successfully and are read again with the same type, each of them comes back unchanged if and only if the strings in it do not end in NUL characters and every ArrayVec<u8, N> in it that is stored as raw data is full; this does not depend on the other values. Values that were read from such a file and are saved again with the same dtype come back unchanged.", "quantifier": "all element types, dtypes, values, shapes and orders, all pairs of machines", "why_tests_cant": "both directions for all values and all nestings of arrays and structs", "anchors": ["src/serialize/slice.rs: all readers and writers", "src/serialize/primitive.rs", "src/serialize/array_member.rs", "src/write.rs: NpyWriter", "src/read.rs: NpyFile::into_vec"]}
{"id": "C113", "title": "An array of an archive is complete or reported as damaged, whatever else happens", "statement": "A program writes arrays to an NPZ archive one after the other under different names; each of them may be begun or not, get any number of values, be carried on with after errors, and be finished, dropped or leaked. An array whose begin_nd and pushes all succeeded, as many as its shape has elements, is found with exactly its values. Every other array is reported as damaged when it is looked up or read. What happens to one array has no influence on the others.", "quantifier": "all histories of an archive writer with any number of arrays, all element types, dtypes, shapes, values, subsets of failing calls and ways to end each writer; all pairs of machines", "why_tests_cant": "unbounded histories in which any call may fail or be left out, and every way to abandon a writer", "anchors": ["src/npz_feature.rs: NpzWriter::array, NpzArchive::by_name", "src/write.rs: WriterBuilder::begin_nd, NpyWriter::push, NpyWriter::finish, NpyWriter::drop"]}
{"id": "C114", "title": "Arrays can be sent through a pipe", "statement": "Over a pipe or socket, where reading beyond what has been sent waits for the sender, the library never waits for more than it needs. Opening waits for 8 bytes and, if these begin a .npy file of a known version, for the header; k calls of next wait for the first k elements, valid or not; a call of next behind the last element does not wait. What arrives later does not change what these calls have returned. In the other direction, everything that was written successfully is readable at once: after begin_nd and any number of successful pushes to a stream that cannot seek, a receiver can open the array and read exactly these elements without waiting.", "quantifier": "all byte streams and all points in time at which part of it has arrived; all element types, dtypes, shapes, values and numbers of elements; all pairs of machines", "why_tests_cant": "every prefix of every stream is a different situation; a test with files never waits", "anchors": ["src/read.rs: NpyFile::new, NpyReader::next", "src/header.rs: read_header", "src/write.rs: WriterBuilder::begin_nd, NpyWriter::push"]}
{"id": "C115", "title": "The message of a refused dtype identifies it", "statement": "descr() of different dtypes is different, also for array dtypes, whose description is no Python expression. When an element type refuses a dtype for reading or writing, the message of the error determines which error it is and all its details (the dtype, the array lengths, both lists of field names, the type string, the size). So when a scalar type refuses a dtype that has no Python objects and no sizes beyond usize, the dtype can be read off the message.", "quantifier": "every pair of dtypes, arrays nested to any depth, any Unicode field names; every element type, Rust type name and machine", "why_tests_cant": "the texts contain names chosen by others, with quotes, commas and brackets; only a proof over all pairs excludes that two situations look the same", "anchors": ["src/header.rs: DType::descr", "src/serialize/traits.rs: DTypeError"]}
{"id": "C116", "title": "After the source has failed once, later reads are right or fail", "statement": "If a read or seek of the underlying source fails and the caller goes on using the reader (next, seek_to, read_at), then every later call either fails or returns the element it is asked for: a value of another element is never returned. A failed seek_to or read_at may be repeated.", "quantifier": "every file, element type and machine; every schedule of source failures; every history of calls after the failure", "why_tests_cant": "the fault has to come at one particular call of one particular history; tests run on sources that do not fail", "anchors": ["src/read.rs: NpyReader::next", "src/read.rs: NpyReader::seek_to", "src/read.rs: NpyReader::read_at"]}
{"id": "C117", "title": "Skipping, counting and windows agree with random access", "statement": "At any point of any history of calls, with l elements to come: nth(k) for k < l returns the same element as read_at of the k-th of them and leaves the reader in the same state; for other k it returns None and nothing is left. count() is l (whatever the source does, errors counted too) if l fits in usize. last() is the last element of the array if l > 0, else None. seek_to(a) followed by collecting take(k) gives exactly the elements a, a+1, ... that exist, at most k, and leaves the reader behind them.", "quantifier": "every file whose elements are all sound (count: every file and every source), every element type and machine, every history of next, seek_to and read_at, every k and a", "why_tests_cant": "the position inside the source and the index kept by the reader must stay in step over all histories mixing skips, seeks and reads", "anchors": ["src/read.rs: impl Iterator for NpyReader", "src/read.rs: NpyReader::read_at", "src/read.rs: NpyReader::seek_to"]}
{"id": "C118", "title": "Reading through a BufReader changes nothing", "statement": "Wrapping the source of an NPY file in a BufReader of any capacity has no observable effect: opening gives the same header or the same error, reading the whole array gives the same result, and every history of next, seek_to and read_at shows the same outcomes as on the source itself, whatever parts the source delivers and however often it is interrupted. If the source fails, everything before the failure is the same and the failure is reported.", "quantifier": "every file, start position, element type and machine; every buffer capacity (also 0); every schedule of short reads, interruptions and failures of the source, for reads and seeks; every history of calls", "why_tests_cant": "what is in the buffer at a seek depends on the capacity, the lengths read and the parts the source delivers; an error of one byte for one combination returns wrong elements", "anchors": ["src/npz_feature.rs: NpzArchive::open", "src/read.rs: NpyFile::new", "src/read.rs: NpyReader::seek_to", "src/read.rs: NpyReader::read_at"]}
{"id": "C119", "title": "A file that is read while it is being written is never misread", "statement": "A program that opens and reads a .npy file while another program is still writing it with this crate (begin, push, finish, drop) gets an error or the data of the complete file, never other data: opening it gives an error or the dtype, order and shape of the complete file; reading it gives an error or all the values; a reader that is kept open gives on every call what it would give on the complete file, up to the first call that fails. All of this also holds if either program goes through a buffer (BufWriter, BufReader). With begin_1d and begin_2d, once the file can be opened everything is there. Once the session is over, opening and reading succeed.", "quantifier": "every element type, dtype, order, shape hint and list of values (of fewer than 10^16 elements or rows); every schedule: each single read call may find the file at another moment of the session, between any two bytes it writes, and may return any number of bytes; every capacity of a BufReader around the file that is read and of a BufWriter around the file that is written; every history of next, seek_to and read_at", "why_tests_cant": "the header is rewritten in place byte by byte while the reader may have read part of it; which bytes are old and which are new depends on timing that no test controls", "anchors": ["src/write.rs: NpyWriter::finish", "src/write.rs: NpyWriter::finish_", "src/write.rs: NpyWriter::push", "src/read.rs: NpyFile::new", "src/read.rs: NpyReader::seek_to", "src/read.rs: NpyReader::next"]}
{"id": "C120", "title": "The derive macros work whatever the struct and the types of its fields are called", "statement": "#[derive(Serialize)], #[derive(Deserialize)] and #[derive(AutoSerialize)] implement the trait for the struct they stand at, from the types of its fields as they are meant at that place: for every struct with named fields, whatever it and the types and modules in its fields' types are called, and also if it is generic. Enums, unions and structs with unnamed fields are refused by the compiler, and nothing else is.", "quantifier": "every struct, enum and union: every name, list of parameters, fields and names in their types; every meaning that names have where it is declared; each of the three macros", "why_tests_cant": "the generated code has names of its own, which capture those of the user; a hygiene test tries one struct, and no test tries all names", "anchors": ["derive/src/lib.rs: impl_npy_serialize", "derive/src/lib.rs: impl_npy_deserialize", "derive/src/lib.rs: impl_npy_auto_serialize", "derive/src/lib.rs: wrap_in_const", "derive/src/lib.rs: FieldData::extract", "tests/derive_hygiene.rs"]}
{"id": "C121", "title": "A file that is read while its writer fails or gives up is never misread", "statement": "A program that opens and reads a .npy file during or after a session of this crate's writer that meets I/O errors at any point (after which the writer is dropped), or that is given up (dropped, or finished) before all values of the declared shape are pushed, gets an error or the data that were pushed, never other data. Opening the file gives an error or the dtype and order of the session and a shape that is the same at all times of that session. Reading it gives an error or exactly the values that were pushed, if all of them could be written. A reader that is kept open gives on every call what it would give on a complete file of the first N values of the session, for one N, up to the first call that fails.", "quantifier": "every element type, dtype, order, shape hint and list of values for which the session would succeed without errors; every number of values pushed before it is given up; every schedule of errors, interrupts and short writes of the stream, also while the header is completed and when that is tried again on drop; every schedule of the reading program: each single read call may find the file at another moment; every capacity of a BufReader; every history of next, seek_to and read_at", "why_tests_cant": "dropping the writer after a failed push completes the header for one value more than the file has, and a failed completion leaves a mixture of two headers which the drop writes over again; which of these a reader meets depends on the error and on timing", "anchors": ["src/write.rs: NpyWriter::push", "src/write.rs: NpyWriter::finish", "src/write.rs: NpyWriter::finish_", "src/write.rs: Drop for NpyWriter", "src/read.rs: NpyFile::new", "src/read.rs: NpyReader::next", "src/read.rs: NpyReader::seek_to"]}
{"id": "C122", "title": "Sparse matrices saved by SciPy are understood", "statement": "A matrix saved by scipy.sparse.save_npz is read as the same matrix: the same format, shape, indices and elements, by Sparse::from_npz and by the reader of its format. Index arrays may have 4 or 8 bytes per index and either byte order, also different ones in one archive; the order of the files and additional files do not matter. If SciPy saved the two- or three-dimensional data of a DIA or BSR matrix in Fortran order, reading gives the documented error, never a wrong matrix; for the other formats the order makes no difference.", "quantifier": "every archive with the files SciPy writes for a COO, CSR, CSC, DIA or BSR matrix, of every shape and number of elements, every index width and byte order, every element type that can be read from the dtype of the data; every order of the files and any additional files; every parser that accepts the Python literals NumPy writes; machines of 32 and 64 bits", "why_tests_cant": "the tests read a few saved matrices; index width, byte order, order of files and shape vary with the platform and the size of the matrix", "anchors": ["src/sparse.rs::Sparse::from_npz", "src/sparse.rs::Coo::from_npz", "src/sparse.rs::Csr::from_npz", "src/sparse.rs::Csc::from_npz", "src/sparse.rs::Dia::from_npz", "src/sparse.rs::Bsr::from_npz", "src/sparse.rs::extract_indices"]}
{"id": "C123", "title": "SciPy can load every sparse matrix that was written", "statement": "After write_npz of a sparse matrix has returned without an error, scipy.sparse.load_npz gets the same matrix from the archive: the name of the format, the shape, the index arrays and the data, each in a file that NumPy reads, the data with the dimensions that the constructor of the matrix class requires.", "quantifier": "every COO, CSR, CSC, DIA and BSR matrix that is written without an error, of every element type with a default dtype; any earlier content of the archive", "why_tests_cant": "all matrices; the tests read the matrices back with this crate only, which does not check the dimensions of DIA data", "anchors": ["src/sparse.rs::Sparse::write_npz", "src/sparse.rs::Coo::write_npz", "src/sparse.rs::Csr::write_npz", "src/sparse.rs::Csc::write_npz", "src/sparse.rs::Dia::write_npz", "src/sparse.rs::Bsr::write_npz", "src/sparse.rs::write_indices"]}
{"id": "C124", "title": "Archives are exchanged with NumPy", "statement": "Every array that numpy.savez put into an archive is listed and returned under its key, with the dtype, shape, order and values it has in NumPy. In every archive array_names lists exactly what NumPy considers to be an array file. Every array that was written to an archive without an error is returned by NumPy's np.load(...)[name] under the name it was written with.", "quantifier": "every archive NumPy wrote (any keys, dtypes, orders, shapes and values) and every element type that can be read from the dtype; every archive at all for the listing; every sequence of arrays written under any names, failing or not", "why_tests_cant": "all names and all combinations of names in one archive: NumPy looks for a member with exactly the given name before it adds .npy", "anchors": ["src/npz.rs::array_name_from_file_name", "src/npz.rs::file_name_from_array_name", "src/npz_feature.rs::NpzArchive::array_names", "src/npz_feature.rs::NpzArchive::by_name", "src/npz_feature.rs::NpzWriter::array"]}
{"id": "C125", "title": "The documented conversions from and to ndarray arrays are exact", "statement": "For every file that can be read, the documented functions to_array_d and to_array_3 make an ndarray array of the file's shape that has at each index the element that NumPy has at this index, in C and in Fortran order. Every ndarray array or view, whatever its memory layout, that the documented function write_array has written comes back with the same shape and the same element at each index, and the file depends only on the elements, not on how they lie in memory.", "quantifier": "every readable file, element type, number of dimensions, shape and order; every array and view (any strides, also negative and zero ones) of an element type with a default dtype; every machine", "why_tests_cant": "all shapes, orders and strides: the tests have one shape and one view; dimensions that do not fit usize and empty arrays with huge dimensions do not occur in tests", "anchors": ["src/lib.rs", "examples/ndarray.rs::to_array_3", "examples/ndarray.rs::to_array_d", "examples/ndarray.rs::write_array", "src/read.rs::NpyFile::into_vec", "src/read.rs::NpyHeader::order"]}
{"id": "C126", "title": "A reader that met the end of a growing file is right or fails afterwards", "statement": "If a file is still growing while it is read, each call of next, seek_to and read_at returns what it returns on the complete file, until a call fails because the data is not there yet. If the caller goes on with the same reader when the file is complete, for example repeats read_at, every later call returns the element it is asked for or fails: the value of another element is never returned.", "quantifier": "every file, element type and machine; every history of calls; every number of bytes that are there at each call, in particular every place at which the file can end, between or inside elements", "why_tests_cant": "the file has to grow between two calls of a particular history; tests read complete or truncated files that do not change", "anchors": ["src/read.rs::NpyReader::next", "src/read.rs::NpyReader::seek_to", "src/read.rs::NpyReader::read_at"]}
{"id": "C127", "title": "The nesting of the dtype of an untrusted file is limited", "statement": "There is a limit, independent of the file, to how deep records and arrays are nested in the dtype of a file that is opened. So code that follows the nesting of a dtype, in this library (from_descr, descr, num_bytes, the comparison and the destruction of a DType) or in the program that uses it, cannot exhaust the stack, whatever the file.", "quantifier": "every file, also a malicious one; every machine; every parser of Python literals", "why_tests_cant": "a limit is a statement about all files; a test has files of some depth, and overflows of the stack depend on the machine", "anchors": ["src/header.rs::DType", "src/header.rs::DType::from_descr", "src/read.rs::NpyFile::new", "src/read.rs::NpyHeader::from_reader"]}
{"id": "C128", "title": "Exactly the well-formed files can be opened", "statement": "NpyFile::new and NpyHeader::from_reader succeed exactly on the streams that begin with a complete header of version 1.0, 2.0 or 3.0 whose text is a dictionary that says the dtype, the shape and the order of the array, where the size of the items fits in a usize and the number of elements in a u64. The dtype, shape and order that are reported are those the file says, and a file says one thing only. Everything else is refused with an error of kind InvalidData or UnexpectedEof.", "quantifier": "every byte stream, every machine, every parser of Python literals", "why_tests_cant": "an equivalence over all byte streams: tests have some good and some bad files", "anchors": ["src/read.rs::NpyFile::new", "src/read.rs::NpyHeader::from_reader", "src/header.rs::read_header"]}
{"id": "C129", "title": "A part of an array along its slowest axis can be read alone, and arrays written one after the other are stacked", "statement": "The elements of a[i:j] (a[..., i:j] in Fortran order) stand together in the file: seek_to(i * product of the other dimensions) and then (j - i) * product calls of next return exactly those elements in the storage order of an array of that shape, whatever was called before. In the other direction, pushing the elements of an array of shape (a, ...) and then those of an array of shape (b, ...) to a writer with the shape (a + b, ...), or to begin_2d when the number of rows is not known in advance, makes a file where the first array is found at the indices below a of the slowest axis and the second at those from a on.", "quantifier": "every array, order, shape, range i..j, element type, history of calls, machine", "why_tests_cant": "ranges over all shapes, both orders and all pairs of bounds: off-by-one errors and a swapped axis show only for some of them", "anchors": ["src/read.rs::NpyReader::seek_to", "src/read.rs::NpyHeader::strides", "src/write.rs::NpyWriter::push", "src/write.rs::WriterBuilder::begin_2d"]}
{"id": "C130", "title": "Readers of the same open file do not disturb each other", "statement": "Two readers made from the same open file (through &File or File::try_clone, which share one position) can be used side by side: read_at and seek_to go to the element that is asked for, and the calls of one reader do not change what the other returns.", "quantifier": "every complete file, element type and interleaving of the calls of the two readers", "why_tests_cant": "ranges over all interleavings; tests use one reader for each file", "anchors": ["src/read.rs::NpyReader::seek_to", "src/read.rs::NpyReader::read_at", "src/read.rs::NpyReader::next"]}
{"id": "C131", "title": "Arrays can be appended to files opened for appending", "statement": "Writing an array to a file that was opened with OpenOptions::append puts it behind what is in the file: if finish returns Ok, then the array is read back from where the file ended before, and what was there before is unchanged.", "quantifier": "every element type, dtype, order, shape or automatic shape, list of values and previous contents", "why_tests_cant": "the tests write to memory and to new files; a file opened for appending ignores seeks, and the property has to hold for every array", "anchors": ["src/write.rs::NpyWriter::finish_", "src/write.rs::WriterBuilder::begin_1d", "src/write.rs::WriterBuilder::begin_2d", "src/write.rs::WriterBuilder::begin_nd"]}
{"id": "C132", "title": "Arrays of Python objects are passed on whole or refused", "statement": "If the dtype contains a Python object anywhere, then the whole array is one pickle. The header that write_header_only writes, followed by any pickle, is opened with the dtype, shape, order, strides and number of elements that were written, uses_pickled_array is true, and into_inner gives back the stream at the first byte of the pickle. No element type, of the library or of the user, reads items from such a file, and none writes items to it.", "quantifier": "every dtype with an object in it, shape, order, pickle, place in the stream, machine that writes and machine that reads, and every element type, also user-defined ones", "why_tests_cant": "the tests open one file and write two headers; the place of the pickle depends on the header, and every element type that anybody defines has to be refused", "anchors": ["src/write.rs::WriterBuilder::write_header_only", "src/read.rs::NpyHeader::uses_pickled_array", "src/read.rs::NpyFile::data", "src/write.rs::NpyWriter::_begin", "src/header.rs::DType::uses_pickled_array"]}
{"id": "C133", "title": "Grouping the same data into structs, arrays or complex numbers does not change it", "statement": "The same data can be read with different headers in front of it. As n structs whose only member is an array of k elements, and as n*k elements, into_vec returns the same elements in the same order, and it fails with the one header exactly if it fails with the other. The same holds for n complex numbers and 2*n floats of the same byte order, real part first. When structs of that kind are saved, and their elements are saved to another file, with any shapes and orders that both succeed with, the two files have the same data after their headers.", "quantifier": "every element type of the library (also nested structs and arrays, text and bytes), member name, k, number of structs, data (also truncated or malformed), machine, and for saving: shapes, orders and streams", "why_tests_cant": "the tests read a few fixed items of each type; that two codecs agree on every byte sequence, including the ones they refuse, cannot be sampled", "anchors": ["src/read.rs::NpyFile::into_vec", "src/serialize/array_member.rs::ArrayReader", "src/serialize/primitive.rs::ComplexReader", "derive/src/lib.rs::impl_npy_deserialize", "src/write.rs::NpyWriter", "src/serialize/array_member.rs::ArrayWriter"]}
