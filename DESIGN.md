# Formal model of ExpHP/npyz in Lean 4

The model is a set of small total computable Lean functions, one per Rust function of interest,
each carrying a comment with the `/repo` file and line range it models.  Properties are the lines
of `properties.jsonl` (C01...).

* `lean/Verif/Model/` - the code.
* `lean/Verif/Spec/` - what theorems refer to besides the model: grammars, byte layouts, exact sizes.
* `lean/Verif/Proofs/` - lemmas.
* `lean/Verif/Props/` - the theorems of `MANIFEST.json`, with examples that satisfy their hypotheses.
* `seeded/LOG.jsonl` - wrong programs tried against the theorems.

A property is listed as `partial` in the manifest if a theorem with the suffix `_partial` is needed for
it.  In every such case the full statement is false of the code, and a theorem with the suffix
`_violated` proves that with a witness.

## Conventions of the model

* Bytes are `List UInt8`; text is `List Char` (Rust `char` and Lean `Char` are both the Unicode
  scalar values).  UTF-8 encoding of a char is Lean core's `String.utf8EncodeChar`.
* `u64`/`usize` quantities are `Nat`; every place where Rust checks, wraps or panics on overflow has
  an explicit check in the model.  `Machine` is a parameter carrying byte order, `usize` width and
  whether overflow checks are on (debug) or off (release, wrapping).
* A Rust panic is the explicit outcome `Res.panic`; an `Err` is `Res.err e`.
* A reader program (`RProg`) is a free-monad term whose only effect is `read_exact n`: it can be run
  on a byte list (`run`), on a source with a schedule of short reads, interruptions and failures
  (`runSched`), or on a source that fails at a byte offset (`runFail`).
* A writer program (`WProg`) is a term over `write_all`/`stream_position`/`seek`/`flush`, run on a sink
  with contents and position (`exec`), on a sink that dies after a number of bytes (`crash`), or with a
  schedule of short writes, interruptions and failures (`runSched`).
* Rust element types are a deep embedding `Ty` (primitives, complex, byte/Unicode strings, arrayvec
  types, fixed bytes, arrays, derived structs) with a dependent interpretation `Ty.Val : Ty → Type`.
* A reader (`NpyReader`) is a value with a header, an element program, a source state and a position;
  a call returns the new reader.  Histories of calls are lists of `ROp`.  `Source` abstracts `Read` and
  `Seek`: some theorems hold for every source, others for a sound one (`disk`) or a scheduled one
  (`flaky`).
* A writer (`NpyWriter`) likewise.  `Target` abstracts `Write` and `Seek`; `solid` never fails, `shaky`
  follows a schedule.  A call returns the result, the new writer and the new sink.  Writers over streams
  without `Seek` are those whose sink has `seekable = false`.
* Readers and writers are generic in the element code: `dataWith`, `beginWith`, `sessionWith` and `saveWith`
  take the `Deserialize`/`Serialize` implementation as a function from the dtype to reader or writer
  programs.  The library's types are `t.reader M` and `t.writer M`; a user's implementation is any such
  function (it may use `read_exact` and `write_all`, `seek`, `stream_position`, `flush` only).
* Dropping a writer runs the body of `finish` and ignores its error, as the code does; `finish` itself
  also drops the writer afterwards.
* A file that another program is writing (C119) has at each `read` call the contents of the session after
  some number of bytes; these numbers are arbitrary.  Either program may go through a buffer.  If the writing
  program meets errors (C121), it has any of the contents the stream held, in any order.
* A crash leaves the first `n` bytes of those that would have been written, in order, for some `n`.
  Reordering of writes by an operating system is not modelled.
* An npz archive is the ordered list of members in the order written; of two members with one name the
  last one is found, as in zip 0.6.  Compression and failures of the zip container are not modelled.
* Floats are their bit patterns (`to_bits`/`from_bits` are the identity on bits).

## Plan per property

<!-- plan -->
| id | property | status | modelled by | proved by |
|----|----------|--------|-------------|-----------|
| C01 | Type strings survive printing and re-parsing | proved | `TypeStr.parse`, `TypeStr.display` | digit strings: parsing inverts decimal printing (core `Nat.toDigits` lemmas); case analysis over the character tables |
| C02 | The type-string parser accepts exactly the documented language and never panics | proved | `TypeStr.parse` | inversion against the grammar relation `Spec.Spells`; both directions; panic excluded by the same case split |
| C03 | Parsing normalises a type string to a canonical spelling | proved | `TypeStr.parse`, `TypeStr.display` | composition of C01 and C02 |
| C04 | Accepted type strings obey the documented size, byte-order and unit rules | proved | `TypeStr.validate`, `SizeAllowed` | table of size rules in `Spec/TypeStr.lean` against the code's `match` |
| C05 | Size in bytes of a dtype is exact or refused | proved | `TypeStr.numBytes`, `DType.numBytes` | induction over the dtype against the unbounded size function `exactBytes` |
| C06 | DType descriptions survive printing and re-parsing | proved | `DType.descr`, `DType.fromDescr`, reference literal parser `Py.parse` | mutual induction over dtypes; the parser inverts the printer with any continuation |
| C07 | Header write/read round trip | proved | `createDict`, `writeHeader`, `NpyHeader.fromReader` | composition of C06, C08, C10 |
| C08 | Data is 64-byte aligned and the header length field is truthful | proved | `padHeader`, `writeHeader` | arithmetic modulo 64 |
| C09 | Header version is the smallest that can represent the header | partial | `writeHeader`, `determineVersion` | case split over versions; witness of the panic |
| C10 | Reading a header consumes exactly the header | proved | `readHeader` as a reader program | the program's run on `header ++ rest` leaves `rest`; locality in the unread suffix |
| C11 | Streams that are not NPY files, or of an unknown version, are rejected | proved | `readHeader` | run on arbitrary bytes |
| C12 | Header dictionaries are read independently of key order and extra keys | proved | `NpyHeader.fromParts` over the parsed dictionary | list lookup lemmas; permutation invariance |
| C13 | Shapes are read exactly or rejected | proved | `convertShape` | induction over the tuple |
| C14 | Interpreting untrusted headers never panics | partial | `NpyHeader.fromReader` | every branch; witnesses for the two panics |
| C15 | Array length is the product of the shape | proved | `nRecords` | induction over the shape |
| C16 | Strides address every element exactly once, in the declared order | proved | `strides` | mixed radix: bijection from index tuples to `0..len`, by induction |
| C17 | Iteration yields exactly the promised number of items | proved | `NpyReader` calls | invariant `cur + remaining = total` over every history of calls, for every source |
| C18 | Random access agrees with sequential reading | partial | `NpyReader.seekTo/readAt/next` | refinement to the list of elements; witness for wrapping offsets |
| C19 | Random access stays correct after an element fails to decode | partial | same | same, for types that notice malformed elements at their end; the converse for all others, by induction over type and dtype; witness |
| C20 | Out-of-range random access is refused without disturbing the reader | partial | same | case analysis; witness |
| C21 | Truncated data is never returned as a complete array | proved | `NpyFile.intoVec` | induction over the item count |
| C22 | Results do not depend on how the source delivers bytes | proved | `RProg.runSched` | schedules without failures do not change a run: induction over program and schedule |
| C23 | A source error is reported, never turned into data | proved | `RProg.runSched`, `RProg.runFail` | induction over program and schedule |
| C24 | Pickled arrays are refused | proved | `NpyFile.data` | induction over the dtype |
| C25 | A failed try_data gives the file back unchanged | proved | `NpyFile.tryData` | state of the source is not touched by a refused attempt; induction over attempts |
| C26 | Every element occupies exactly the dtype's byte size | proved | `Ty.reader`, `Ty.writer` | structural induction over element types against byte-level `encode`/`decode` |
| C27 | Numeric values round-trip bit-exactly in both byte orders | proved | same | round trip of `encode`/`decode`; word arithmetic base 256 |
| C28 | Numeric bytes on disk do not depend on the machine | proved | same | big/little-endian words written as explicit sums of bytes |
| C29 | Booleans are decoded strictly | proved | same | case analysis over the byte |
| C30 | Byte strings: padding, trimming and refusal | proved | same | lists with trailing NULs |
| C31 | Unicode strings: padding, trimming and refusal | proved | same | same with 4-byte words and the scalar-value test |
| C32 | UTF-8 strings in |SN round-trip | proved | same, UTF-8 decoder of Lean core | same |
| C33 | Fixed-size bytes are exact | proved | same | same |
| C34 | Bounded strings read a prefix and never panic | partial | same | same; witness |
| C35 | Fixed-length arrays round-trip element by element | proved | same | induction over the array length and nesting |
| C36 | Derived structs are matched by field names in order | proved | same, `derive` | induction over the field list |
| C37 | Supported type/dtype pairs match the documentation | proved | `Ty.reader`, `Ty.writer` as acceptance tables | induction over element types against `CanRead`/`CanWrite` |
| C38 | Default dtypes always work | proved | `Ty.defaultDType` | induction over element types |
| C39 | Whole-file round trip, known shape | proved | `NpyWriter.begin/push/finish`, `NpyFile` | session writes `header ++ items`; reader theorems on those bytes |
| C40 | Whole-file round trip, automatic shapes | proved | same with placeholders | same plus C41 |
| C41 | Finishing only rewrites the shape placeholder | proved | `NpyWriter.finish_` | overwriting bytes of the sink; lengths of the two shape texts agree |
| C42 | Finish is idempotent with the implicit drop | proved | `NpyWriter.finish_`, `drop` | second run writes the same bytes |
| C43 | Wrong item counts are reported | partial | `NpyWriter.finish_` | case analysis; witness |
| C44 | begin_2d tolerates a zero record length | partial | `NpyWriter.finish_` | division by zero shown; other lengths by C40 |
| C45 | Items whose push failed are not counted | partial | `NpyWriter.push` | counter invariant; witness |
| C46 | A crash before finishing never leaves a readable but wrong file | proved | `NpyWriter.session` with `WProg.crash` | every prefix of the bytes; rejected placeholders |
| C47 | A torn header rewrite is detected | proved | same for `finish_` | every prefix of the new header over the old one; classification of the mixed texts |
| C48 | Incompatible dtypes are refused before any item is written | partial | `NpyWriter.begin` | order of effects; witness |
| C49 | Builder calls commute | proved | `Builder` | last-call-wins record; permutations |
| C50 | Element i lives at header length plus i times item size | proved | `NpyWriter` bytes | positions in a concatenation of equal-size pieces |
| C51 | NPZ member names round-trip | proved | `fileNameFromArrayName`, `arrayNameFromFileName` | string suffix lemmas |
| C52 | NPZ arrays are found under the names they were written with | partial | `NpzArchive`, `NpzWriter` over a list of members | list lookup; witness with a NUL in a name |
| C53 | Sparse matrices round-trip | proved | sparse writers and readers | composition of C39/C40 per member |
| C54 | Sparse index arrays use 32 bits exactly when possible | partial | `writeIndices` | case analysis; witness |
| C55 | Sparse files of another format are rejected | proved | `Sparse.read` dispatch | case analysis on the format member |
| C56 | DIA data is stored with its documented shape | partial | `Dia.write` | shape of the written array; witness |
| C57 | Malformed sparse archives never panic | proved | sparse readers | every branch |
| C58 | Legacy NpyData agrees with the streaming reader | partial | `NpyData` | slices against the streaming reader; witness |
| C59 | Item size of an opened file is exact | proved | `itemSizeOf`, `fromReader` | exact size function |
| C60 | Documented default dtypes exist | partial | `Ty.defaultDType` | case analysis; witness |
| C61 | Incomplete BSR matrices are never written | partial | `Bsr.write` | witness, and case analysis of the asserts |
| C62 | Sparse readers return exactly what the archive contains | proved | sparse readers | inversion of each reader, both directions |
| C63 | Short and interrupted writes do not matter | proved | `WProg.runSched` | schedules without failures do not change a run |
| C64 | Success means the file is complete | proved | `WProg.runSched` on writers | a failing run ends in that failure; success only without failures that matter |
| C65 | After a successful finish the sink is behind the array | partial | `NpyWriter.finish`, `drop` | witness; holds without failures |
| C66 | A torn header rewrite of a two-dimensional file is detected | proved | as C47 for `begin_2d` | as C47, with the digits of two numbers |
| C67 | Arrays written one after the other are read back one after the other | proved | `NpyWriter.save`, `NpyFile.new`, `NpyFile.intoVec` | induction over the list of arrays; each session appends its bytes and each reading consumes exactly them |
| C68 | Grouping of push and extend does not matter | proved | `NpyWriter.push`, `NpyWriter.extend` | induction over the calls, for every stream |
| C69 | Files do not depend on the machine | proved | writer and reader with two `Machine` parameters | both runs equal the same machine-independent bytes; the header reader's results agree step by step |
| C70 | An I/O error never leaves a file that reads as something else | proved | `NpyWriter.save` on a stream with a schedule (`shaky`) | every session leaves a cut header, or items with an unfinished header, or items with a header completed up to some byte; each of these is classified as in C46, C47 and C66 |
| C71 | The error for an unsuitable dtype tells the truth | partial | `DTypeErr` with its payloads, `DTypeErr.message`, `Ty.reader`, `Ty.writer` | mutual induction over the element type; witness for the exchanged field names |
| C72 | The error for a bad type string can be displayed and tells the truth | proved | `TypeStrErr.message`, `TypeStr.parse`, `convertTypeStr` | inversion of the parser on errors |
| C73 | Headers written by NumPy are understood | partial | `NpyHeader.fromReader`; `Spec/Numpy.lean` says what NumPy writes | induction over the printed description: each text is a literal of the Python grammar whose value `DType.fromDescr` turns into the dtype; witnesses in Latin-1 |
| C74 | NumPy can read every file that was written | partial | `NpyWriter.save`, `writeHeader`; `Spec/Numpy.lean` says what NumPy accepts | the written text is a literal, its value a NumPy description; the bytes determine the text, so other names are refused |
| C75 | Buffering changes nothing | proved | `buffered`: `WProg.runBuf`, `BufSink.close`; `NpyWriter.save`, `toFile1d` | simulation: a run through the buffer is a run of the inner stream, with the buffer put back, under a schedule with no other errors |
| C76 | Success through a buffered writer means the file is complete | proved | `buffered`, `NpyWriter.save` | success means the flush of `finish_` emptied the buffer; the second `finish_` (drop) writes bytes that are there already |
| C77 | Losing a write buffer never leaves a file that reads as something else | proved | `buffered`, `NpyWriter.session`, `NpyWriter.save`; `kept` in `Spec/Buffer.lean` | what is kept of a buffered run is what a shaky stream holds under some schedule, then C46 and C70 |
| C78 | Reading elements of an untrusted file never panics | partial | `NpyFile.data`, `tryData`, `intoVec`, `NpyReader.next` over `flaky` | readers consume exactly the item size or fail, so their only panic is the allocation of an item; witness file by evaluation |
| C79 | Arrays of known shape can be written to streams that cannot seek | proved | `NpyWriter.save` over `shaky`, `writeHeader` | no program of such a session contains `tell` or `seek` (induction over the element type), so runs do not depend on `seekable` |
| C80 | Writing never panics | partial | `NpyWriter.save` over `solid`, `shaky` and `buffered` | the session on a reliable stream is followed step by step, the others by C64 and C76; witnesses for the excluded cases |
| C81 | Descriptions of dtypes are read exactly or rejected | proved | `DType.fromDescr`, `DType.parse`, `interpretHeader` (Model/Header.lean) | inductive relation `Describes` (Spec/Descr.lean); soundness by mutual recursion on values, completeness by mutual recursion on derivations (Proofs/Descr2.lean) |
| C82 | An element is found by its index through the strides | proved | Model/Header computeStrides, Model/Read, Model/Writer; Spec/Index lists the indices of a shape in storage order | Proofs/Index: the position given by exact strides is the place in the listing (induction over the dimensions, mixed-radix numerals); combined with C18, C21, C39, C40 |
| C83 | The memory requested for reading is bounded by the file | partial | reader programs of Model/Header and Model/Serialize; Spec/Memory `buffers` lists the sizes of the `read_exact` calls | witnesses; induction over the program (a longer input never changes earlier requests; a run that leaves something consumed the sum of its buffers), combined with the codec theorem `Reads` |
| C84 | Arrays of user-defined element types are read item by item | proved | `NpyFile.dataWith`, `NpyReader V` with any `read_one` program (Model/Read.lean); Spec/Read `Decodes`, `itemAt`, Spec/User `repeated` | the invariant of C18 (the reader is at an item boundary) needs only the contract `Decodes`; without a contract, induction over the number of elements |
| C85 | Arrays of user-defined element types are written as the user's bytes | proved | `NpyWriter.beginWith`, `saveWith` with any `write_one` programs (Model/Writer.lean); Spec/User `OnlyAppends`, `AllAppend` | induction over the values, then the case analysis of `finish` (C39-C41), which does not depend on the element type |
| C86 | Files of user-defined element types are never wrong after a failure | proved | `NpyWriter.beginWith`, `sessionWith`, `saveWith` with any `write_one` programs over `solid`, `shaky`, `buffered`, `crash`; Spec/User `WritesItems`, `LeftOver` | the proofs of C46, C63, C64, C66, C70, C75-C77 made generic in the element code; only `WritesItems` is needed of it |
| C87 | Pointers to values are stored as the values | proved | `viaDeref` (Model/Compose.lean) over any `Target`; Spec/Compose `Lawful` | a pointer's writer is the writer of the target after `deref`; the session commutes with it by induction over the values, for every stream that treats `map` as it should |
| C88 | Arrays and structs of user-defined element types work | proved | `arrayReader`, `arrayWriter`, `StructReader`, `StructWriter`, `arrayDType`, `structDType` (Model/Compose.lean); Spec/Compose `GoodReader`, `GoodWriter`, `RoundTrips` | closure theorems for each way of combining element types; then C84 and C85 |
| C89 | A header can be used apart from its data | proved | `NpyFile.new`, `withHeader`, `intoInner` (Model/Read.lean), `writeHeader` (Model/Write.lean) | what a reading program does depends only on the bytes in front of it; C10, C84; induction over the values for writing |
| C90 | Different arrays make different files | proved | `NpyWriter.save`, `saveWith` on two machines | both files are read on one machine (C39, C40, C88); reading is a function |
| C91 | Sparse matrices are never read wrongly from a failing archive | proved | `FlakyArchive`, `ZipM` and the readers over it (Model/Faulty.lean) | `Follows` is closed under sequencing; the primitive steps by C26 |
| C92 | A sparse matrix that is reported as written is complete | proved | `ShakyArchive` and the writers over it (Model/Faulty.lean) | simulation of each array by the one on a reliable stream, closed under sequencing |
| C93 | Failures while a sparse matrix is written are reported | partial | as C92 | witness; counting the failures that a successful run consumes |
| C94 | Copying an array through the library preserves it byte for byte | proved | the readers and writers of all element types (Model/Serialize), `NpyFile::new`, `into_vec` (Model/Read), `NpyWriter` (Model/Writer) | mutual induction over types and dtypes that `encode` inverts `decode` on every item of the right size (Proofs/Resave), with the exact behaviour of readers, writers and sessions proved before; Props/Resave |
| C95 | The element types for text and bytes agree with each other | proved | the readers and writers of the text and byte types (Model/Serialize) | each reader and writer is characterised by `decode`/`encode` (C27 to C33); the specifications are then compared: code points of characters, UTF-8 of trimmed bytes, capacity; Props/Agree |
| C96 | The version, padding and final newline of a header do not matter | proved | `read_header` and the parsing of its text (Model/Header.lean), `Py.parse` (Model/Py.lean); Spec/Framing `Framed`, `frame` | the reference parser ignores blanks around the literal (Proofs/Blanks.lean, by induction over the parser's fuel); the three versions hand the same text to it; C89 for the data |
| C97 | Every member of every element has a fixed place in the file and can be overwritten there | proved | the readers and writers of arrays and structs (Model/Serialize.lean), `NpyFile::new`, `into_vec`, `NpyWriter`; Spec/Place `Part`, `Put`, `slice`, `patch` | mutual induction over element types for `decode` and `encode` (Proofs/Place.lean); C21, C50, C10 for whole files |
| C98 | Shape and order are labels: reshaping and transposing do not touch the data | proved | `NpyHeader::from_parts`, `strides` (Model/Header.lean), readers and writers; Spec/Transpose `otherOrder`, `Transposed` | the prefix products of a reversed shape are those of the shape, reversed; C82 for indices, C39, C40 and the encoding of what was read (C94) for saving |
| C99 | A sparse matrix that can be read can be written again | partial | the readers and writers of sparse matrices (Model/Sparse.lean); Spec/SparseCopy `LaidOut` | C62 says what was read, so its arrays fit; then C53; witness for the violation by evaluation in the kernel and C56 |
| C100 | The kind of an error tells truncated files from damaged ones | proved | the reading programs of headers and elements (Model/Header, Model/Serialize), `NpyFile::new`, `into_vec`, `next` (Model/Read) | every reading program reports its own errors as InvalidData and an early end as UnexpectedEof (Proofs/Kinds, by structural induction); such programs do the same on longer input unless they reached the end; induction over the elements |
| C101 | The number of elements read from a file is bounded by its size | partial | Model.Read, Model.Header | C21 for the bound; for the violation a file of |V0 items with shape (n,), built by the writer (C39) and measured by headerBytes_le |
| C102 | Byte order is a matter of representation only | proved | Model.Serialize, Model.Read; the other dtype and the reversed words in Spec.Swap | mutual induction over the dtype for encode and decode (Proofs.Swap), then through the codec theorems to readers, writers and files |
| C103 | The dtype determines the element type | proved | the readers of all element types (Model/Serialize); Spec/OneType `Alike` | mutual induction over the dtype on what can be read from it (C37); unique primitive type for each kind and size |
| C104 | Damage to one item stays in this item | proved | `NpyFile::new`, `into_vec`, `read_at` (Model/Read); Spec/Damage `DiffersIn` | the header is local (C10), then C21 and C18 at the other items |
| C105 | Numbers and bytes are always readable | proved | as C104; Spec/Damage `Free` | mutual induction over element types that every item of the right size is decoded; C21 |
| C106 | The order of the members of an archive and other members do not matter | proved | `NpzArchive` (Model/Npz), the readers of sparse matrices (Model/Sparse); Spec/Archive `SameMembers` | looking up a name in a list without duplicates depends only on membership; unfolding of the readers |
| C107 | A bigger machine reads and writes everything a smaller one does | proved | `NpyFile::new`, `into_vec`, readers and writers on two machines; Props/Bigger `Spec.AtLeast` | every size computation that succeeds on the smaller machine gives the same on the bigger one; then C21 for reading and C69 for saving |
| C108 | The numbers in a sparse archive are taken at their value | partial | the readers of sparse matrices (Model/Sparse); Props/Indices `Spec.StoresInts` | C62 gives the stored words; sign extension keeps the value; witnesses by evaluation in the kernel |
| C109 | The derive macros work whatever the fields are called | partial | the names in the code that derive/src/lib.rs generates (Model/Derive): scopes, shadowing, struct literals; Props/Derive `Spec.FieldsNamed` | induction over the fields on the scope that the statements build; lookup in it; witness by evaluation in the kernel |
| C110 | Writing over old data is all or nothing | partial | `NpyWriter` on streams with old contents (Model/Write, Model/Writer), `WProg.crash` | the interrupted session is a single overwrite (C46); what is outside of it stays; the placeholder of the new header is rejected; C21 for the items; witnesses by evaluation in the kernel |
| C111 | An array that could not be saved cannot be read | partial | `NpyWriter` (Model/Writer), `Ty.writer` (Model/Serialize) | induction over types: a value that cannot be stored leaves fewer bytes than its item has (Proofs/Short); a header that announces more bytes than there are is a truncated file (C21), an unfinished header is rejected (C46); witnesses by evaluation in the kernel |
| C112 | Which values come back unchanged, and that losses do not repeat | proved | readers and writers of all types, `NpyWriter`, `NpyFile`; Spec/Kept `Kept` | mutual induction over types: the value read back is the value iff it is kept, and reading back is idempotent (Proofs/Kept); C39 and C40 for files |
| C113 | An array of an archive is complete or reported as damaged, whatever else happens | partial | `NpzWriter`, `zipStream`, `NpzArchive` (Model/Npz), `NpyWriter` (Model/Writer); Spec/Visit `Visit` for what may be done with one array | a stream of an archive behaves like a sink of its own (Proofs/Npz `Alike`); what `begin_nd` leaves in each case; C39 for complete arrays, C21 and C111's lemmas for the others; witnesses by evaluation in the kernel |
| C114 | Arrays can be sent through a pipe | proved | `RProg` (Model/IO), `NpyFile::new`, `NpyReader::next`, `NpyWriter` on `plainStream` (Model/Npz); Spec/Pipe `waits`, `nexts`, `receive` | a program waits iff its requests exceed what has arrived (C83's `buffers`); requests of an element are bounded by its size on every input; induction over the number of calls; C39's lemmas for the written bytes |
| C115 | The message of a refused dtype identifies it | proved | `DType::descr`, `DTypeErr.message` (Model/Header, Model/Serialize) | each part of a text ends where its first character that cannot belong to it stands (digits, quoted strings), so the parts can be split off one by one; C01, C06 and C71 for type strings, descriptions and the place an error speaks of |
| C116 | After the source has failed once, later reads are right or fail | partial | `NpyReader::next`, `seek_to`, `read_at` (Model/Read) over sources that fail by schedule (`flaky`; `stiff` in Spec/Recover: only seeks fail) | violated: a reader that has counted one element too many simulates a reader of the array without its last element, shifted by one, for every history; partial: a failed seek changes neither the index nor the source, induction over the history |
| C117 | Skipping, counting and windows agree with random access | proved | `nth`, `fold`, `count`, `last`, `take` of `Iterator` over `NpyReader::next` (Model/Iter) | after every history the reader is in the normal form `atItem i`, on which each method is computed by induction over `k` |
| C118 | Reading through a BufReader changes nothing | proved | `std::io::BufReader` over a scheduled source: `read_exact`, `seek` (Model/BufRead) | simulation between the buffered source and the plain file (buffer ++ rest of the source = rest of the file), for every reading function and seek, lifted to open, histories and whole files |
| C119 | A file that is read while it is being written is never misread | proved | a file whose contents at each `read` call are given by a schedule, with or without a `BufReader` around it; the session, with or without a `BufWriter`, as one program that can be stopped at every byte (Model/Live) | every byte read is one of the header before completion or after it; a mixture of the two shape texts is refused by the parser or is the final one (stars and digits cannot be mixed); simulation between the changing file and the final one, from the first item on |
| C120 | The derive macros work whatever the struct and the types of its fields are called | partial | the names of types in the code that derive/src/lib.rs generates (Model/DeriveTypes): parameters, items of the block, what is outside | resolution computed at each place where the struct and the types stand, for all names; violations from the exact condition |
| C121 | A file that is read while its writer fails or gives up is never misread | proved | the session on a stream that behaves by a schedule, with a record of everything the stream held (`traced`, `attempt` in Model/Live) | all contents are parts of the unfinished file or have a header completed up to some byte for one fixed count N, which is larger than the number of values there if a push failed; from there as C119, with the complete or the cut off file of the first N values in the place of the final one |
| C122 | Sparse matrices saved by SciPy are understood | proved | the readers of sparse matrices (Model/Sparse); Spec/Scipy `ScipySaved` says what SciPy writes | NumPy's header is understood (C73), so each file of SciPy is an array of the archive in the sense of C62; C62 says what the readers make of it |
| C123 | SciPy can load every sparse matrix that was written | partial | the writers of sparse matrices (Model/Sparse); Spec/Scipy `ScipyLoads` says what SciPy gets from an archive | each written file is one NumPy reads (C74) with the encoded values after it, and later files do not hide it; violated: the header of a file determines its shape, so the dimensions cannot be the ones SciPy requires |
| C124 | Archives are exchanged with NumPy | partial | the names and the archive reader and writer (Model/Npz); Spec/NumpyNpz says what NumPy puts into an archive and gets from one | each member NumPy wrote is read by C73 and C21; a written member is one NumPy reads (C74), looking up names in the list of members; violated: NumPy tries the name without `.npy` first |
| C125 | The documented conversions from and to ndarray arrays are exact | partial | the documented functions `to_array_3`, `to_array_d`, `write_array` (Model/Ndarray), over what `ndarray` does; Spec/Ndarray says what is expected of them | `ndarray`'s strides are the exact strides of C16, so its element at an index is the one at that place of the storage order (C82); C39 for what is written; violated: `ndarray` limits the product of the nonzero dimensions, and `as usize` truncates |
| C126 | A reader that met the end of a growing file is right or fails afterwards | partial | `NpyReader::next`, `seek_to`, `read_at` (Model/Read) on a file whose contents change between the calls (`growing`, `refresh` in Spec/Grow) | violated: a program that lacks bytes uses up what is there, so the reader is then one element too far in its count; it simulates a reader of an array without its last element that starts `k` bytes later (C116), for every history; partial: an element of a part of the file is that of the file or missing, induction over the calls |
| C127 | The nesting of the dtype of an untrusted file is limited | partial | `NpyHeader::from_reader`, `DType::from_descr` (Model/Header), the reference parser (Model/Py); `nesting`, `values` in Spec/Depth | violated: a header of version 2 with `n` nested records, by induction on `n` and the lemmas of C07 and C96; partial: induction over the parser (a character for each value) and over the description (a value for each level) |
| C128 | Exactly the well-formed files can be opened | partial | `NpyFile::new`, `NpyHeader::from_reader`, `read_header` (Model/Header); `IsNpy` in Spec/Opens | the outcome of a framed header is `from_parts` of what the text says, by C12, C13 and C81; the other outcomes by the cases of the reader; violated: the witnesses of C14 |
| C129 | A part of an array along its slowest axis can be read alone, and arrays written one after the other are stacked | proved | `NpyReader::seek_to`, `next` (Model/Read), `NpyWriter::push`, `begin_nd`, `begin_2d` (Model/Write); `stack`, `advance` in Spec/Slice | the storage order of a stacked shape is that of the first part followed by the moved second part (`List.range_add`; Fortran order by reversal), then C117 for reading and C82 for writing |
| C130 | Readers of the same open file do not disturb each other | partial | `NpyReader::seek_to`, `read_at`, `next` (Model/Read) of two readers with one source (`shared` in Spec/Shared) | violated: seeks are relative to the current position; invariant: the position is that of the sum of the two indices, so each reader is a reader of an array that begins where the other reader is; induction over the calls; partial: taking turns, the index of the resting reader is zero |
| C131 | Arrays can be appended to files opened for appending | partial | `begin_1d`, `begin_2d`, `begin_nd`, `push`, `finish` (Model/Writer) on a file that ignores the position when it is written to (`appending` in Spec/Append) | violated: whatever is done after `begin`, the file only grows, so the unfinished header stays, which C46 shows to be unreadable; the result of `finish` does not depend on positions, so it is Ok; partial: with a known shape only writes happen, simulation with a stream at the end, then C39 |
| C132 | Arrays of Python objects are passed on whole or refused | partial | `write_header_only`, `NpyFile::new`, `into_inner`, `data`, `_begin` (Model/Writer, Model/Header, Model/Read), element types as arbitrary readers and writers; `GivesNoItems` in Spec/Pickle | the header is read back by C07's lemma for any bytes behind it, `data` looks at the flag before the type; violated for writing: `_begin` asks only the type, a user's writer that accepts the dtype succeeds by C89, and the file is then refused for all types |
| C133 | Grouping the same data into structs, arrays or complex numbers does not change it | proved | `NpyFile::into_vec` (Model/Read), the codecs of arrays, derived structs, floats and complex numbers (Model/Serialize); `oneField`, `elements`, `parts` in Spec/View | `into_vec` is the list of the decoded pieces of the data (C21); pieces of pieces are pieces, by induction over the number of structs; the codecs of the group and of its elements agree piece by piece; for saving, the encoding of a struct is the encodings of its elements one after the other |
<!-- end plan -->

## Properties that are false of the code

Each is proved in Lean with a concrete witness.

| id | theorem | what happens |
|----|---------|--------------|
| C09 | `C09_violated` | a header dictionary of more than 65525 ASCII bytes panics instead of using version 2 |
| C14 | `C14_violated` | with overflow checks a shape whose product exceeds u64 panics while opening, even of an empty array; on 32-bit machines an oversized length does |
| C18 | `C18_violated` | in release builds `read_at` in an array of 2^63 or more declared bytes returns another element |
| C19 | `C19_violated` | after a malformed `U` string, `read_at` returns wrong elements |
| C20 | `C20_violated` | with overflow checks `seek_to` inside such an array panics |
| C34 | `C34_raw_violated` | `ArrayVec<u8, N>` read from `\|Vn` with n < N has N bytes |
| C43 | `C43_violated` | without overflow checks a wrong number of items passes if the product of the shape wraps |
| C44 | `C44_violated` | `begin_2d` with record length 0: finishing and dropping divide by zero |
| C45 | `C45_violated` | a failed push is counted in the shape |
| C48 | `C48_violated` | the header of an unsupported dtype is written before the error |
| C52 | `C52_violated` | a member name that goes on after a NUL is listed but not found |
| C54 | `C54_violated` | unsigned sparse indices from 2^64 - 2^31 are stored as negative i32 |
| C56 | `C56_violated` | the shape of DIA data is stored transposed; without offsets writing panics |
| C58 | `C58_violated` | `NpyData::size_hint` underflows after the end |
| C60 | `C60_violated` | `FixedSizeBytes<N>` has no default dtype |
| C61 | `C61_violated` | without overflow checks incomplete BSR data passes the length check |
| C65 | `C65_violated` | `finish` returns Ok with the position inside the header if the seek of the implicit drop fails |
| C71 | `C71_violated` | the message for wrong field names says expected for the names in the file and got for those of the struct |
| C73 | `C73_violated` | Latin-1 headers of versions 1 and 2 are read as UTF-8: refused, or with other field names |
| C74 | `C74_violated` | records with repeated field names or a NUL in a name are written, but NumPy does not read them |
| C78 | `C78_violated` | a file of 89 bytes that declares an item of 2^63 bytes panics when it is read |
| C80 | `C80_violated` | top-level array dtypes, overflowing shapes (with overflow checks) and items above `isize::MAX` panic |
| C83 | `C83_violated`, `C83_violated_items` | a file of 12 bytes makes the header reader allocate 4 GiB; an item of any declared size is allocated before it is read |
| C93 | `C93_violated` | an I/O error of the flush when an array writer is dropped is not reported by `write_npz` |
| C99 | `C99_violated` | an empty DIA matrix can be read, but writing it again panics |
| C101 | `C101_violated` | files of less than 200 bytes with items of size 0 give any number of elements |
| C108 | `C108_violated`, `C108_machines` | negative index pointers are read as huge ones; on 32-bit machines 64-bit index pointers are truncated |
| C109 | `C109_violated` | a field called `reader` or `func`, unless it is the last one, captures a name that the derived `Deserialize` uses: it does not compile |
| C110 | `C110_violated` | a session that stops while it overwrites an old file can leave a mixture of both: `[4, 2, 3]` from `[1, 2, 3]` and `[4, 5, 6]`; integers from an old file of floats |
| C111 | `C111_violated` | a `String` too long for `<Un` is written up to its n-th character before the error; the failed push counts, so the file is left as a complete array with a shortened string |
| C113 | `C113_violated` | a failed push of a long string leaves a member with a complete array and a shortened string; a failed `begin_nd` with an empty shape leaves a readable empty array |
| C116 | `C116_violated` | after an element whose reading failed (a source error, not end of file) the index has moved on but the source has not: later `read_at` calls return the wrong elements |
| C120 | `C120_violated_name`, `C120_violated_type`, `C120_violated_module`, `C120_violated_generic` | `derive(Deserialize)` does not compile for a struct called `R` or with a field type called `R`, `derive(Serialize)` not with a field type called `W`, and neither with a user's module `io` in a field type or for generic structs |
| C123 | `C123_violated` | a DIA matrix with 2 diagonals of 3 elements is written without an error; its data has shape [3, 2], which SciPy refuses |
| C124 | `C124_violated` | arrays called `x` and `x.npy` are written to one archive; NumPy returns the first one under both names |
| C125 | `C125_violated` | an empty array of shape (0, 2^63) is read, but the documented conversion panics; on 32-bit machines shape (0, 2^32 + 1) becomes (0, 1) |
| C126 | `C126_violated` | `read_at(1)` fails because the element is not in the file yet; repeated when it is, it returns element 0 |
| C127 | `C127_violated` | a file of 1.1 MB with 100000 nested records is opened; `from_descr`, `descr`, `num_bytes` and the destructor call themselves once for each level |
| C128 | `C128_violated` | without overflow checks a file of shape (2^32, 2^32) is opened and has no elements; with them a file of shape (2^32, 2^32, 0), which has none, panics |
| C130 | `C130_violated` | two readers of one open file: after one has read the first element, `read_at(0)` of the other returns the second |
| C131 | `C131_violated`, `C131_lost` | an array written with `begin_1d` or `begin_2d` to a file opened for appending: `finish` returns Ok, the file cannot be opened |
| C132 | `C132_violated`, `C132_written` | an array of Python objects written item by item with a user-defined element type: `finish` returns Ok, no type can read the items |

## Coverage of the code

| file | modelled | not modelled |
|------|----------|--------------|
| `src/type_str.rs` | parsing, printing, validation, sizes, constructors | `Debug` output |
| `src/header.rs` | `DType`, `Field`, `descr`, `from_descr`, sizes, `NpyHeader`, dictionary and shape conversion, header reading, pickle check | accessors that return a field, texts of error messages |
| `src/read.rs` | `NpyHeader::from_reader`, `NpyFile`, `NpyReader` (iteration, seeking, `len`, `size_hint`, `into_vec`), `NpyData` | accessors, `Deref`, deprecated aliases |
| `src/write.rs` | builder, `NpyWriter` (`begin_*`, `push`, `extend`, `finish`, `Drop`), `to_file_1d`, header creation, padding, versions | `MaybeSeek` plumbing (its two cases are `seekable`), deprecated `OutFile` wrappers (`to_file_1d` goes through them) |
| `src/serialize/*.rs` | every reader, writer and default dtype; the traits for user-defined types, with pointers, arrays and structs of them | the Rust type name and the verb inside `DTypeError` texts, `TypeReadDyn`/`TypeWriteDyn` forwarding |
| `src/npz.rs`, `src/npz_feature.rs` | names, archive lookup and listing, writer; failing streams (Model/Faulty.lean) | the zip container itself, in particular what it does internally on failing streams |
| `src/sparse.rs` | readers and writers of all five formats, dispatch | error texts |
| `derive/src/lib.rs` | the generated code for structs; name resolution in it (Model/Derive.lean, Model/DeriveTypes.lean); which inputs are refused | parsing of Rust syntax, generic bounds, `Self` in types of fields, type checking |
| `src/type_matchup_docs.rs` | the tables, as the specifications `CanRead`, `CanWrite` | |
| `src/lib.rs`, `examples/ndarray.rs` | the documented conversions from and to `ndarray` (Model/Ndarray.lean) | the other examples |
| unit tests in `src`, `tests/*.rs`, `test-data` | run on the model, in `Conformance/` | tests of `DTypeError` texts |

Every definition in `Model/` cites the lines it models.

## Trusted base

* Lean's kernel and, per theorem, the axioms listed below.  No others; no `native_decide`,
  `bv_decide`, `sorry`.
* The hand translation from Rust to the model (comments give file and lines).  As a check of this
  translation (not as proofs of anything) `Conformance/` runs the project's own unit and integration tests
  on the model: more than 200 examples, among them the reading of the files in `test-data`, which were written
  by NumPy and SciPy.  All of them give the results that the Rust tests expect.
* Standard library behaviour assumed: `read_exact`, `write_all`, `Cursor`, formatting of integers in
  decimal, `str::from_utf8` (= Lean core's UTF-8), `HashMap` from an iterator keeps the last duplicate.
  `BufWriter` (`Model/Buffer.lean`) empties its buffer before it seeks or flushes and when it is dropped;
  `BufReader` (`Model/BufRead.lean`) drops its buffer when it seeks; `nth`, `count`, `last` and `take` are the
  default methods of `Iterator` (`Model/Iter.lean`).
  After `UnexpectedEof` the rest of the source counts as consumed.  Sink positions are not limited to
  `i64`.
  The errors that a source or sink returns itself (`Err.source`) are those whose kind is neither `Interrupted`
  (which is an event of its own) nor `UnexpectedEof` (which `read_magic_and_version` cannot tell from the end of
  the file).
* `py_literal` is absent from the sandbox.  Header-reading functions take the literal parser as a
  parameter.
  * Theorems over arbitrary input hold for *every* parser.
  * Round-trip theorems hold for every parser that agrees with the reference parser `Py.parse` on texts
    it accepts (`ExtendsRef`): strings in single or double quotes with the usual escapes, integers, booleans,
    None, tuples, lists, dicts, trailing commas, blanks.
  * C46, C47 and C66 assume in addition that the parser rejects what the reference parser rejects among
    texts that begin like the written header (`StrictAfter`).
  * Panics inside the parser are outside the model.
* NumPy's side in C73 and C74 is the specification `Spec/Numpy.lean`, written after `numpy/lib/format.py`;
  there `Py.parse` stands for `ast.literal_eval`.  Not in it: names whose `repr` needs hexadecimal escapes,
  titles, generic and multiple time units (`M8`, `M8[25s]`), the limit on the length of headers.
* The crate `ndarray` in C125 is modelled in `Model/Ndarray.lean` (`NdView`, `ndStrides`, `ndFromShapeVec`), after version 0.15.
* NumPy's side of archives in C124 is the specification `Spec/NumpyNpz.lean`, written after `NpzFile` and `savez` of
  `numpy/lib/_npyio_impl.py` and Python's `zipfile`.
* SciPy's side in C122 and C123 is the specification `Spec/Scipy.lean`, written after `scipy/sparse/_matrix_io.py`
  and the constructors of the matrix classes.  Not in it: what the constructors require of the values of indices.
* `num_bigint`, `byteorder`, `half`, `num_complex`, `arrayvec` are modelled by the obvious mathematical
  objects.
* Not modelled: file-system paths, allocation failure other than capacity overflow, stack overflow on
  deep nesting, concurrency other than that of C119 and C121 (a second panic while a panic unwinds is one panic).

## Axioms

<!-- axioms -->
| property | theorems (axioms: P = propext, C = Classical.choice, Q = Quot.sound, - = none) |
|---|---|
| C01 | `C01_display_parse` CPQ |
| C02 | `C02_parse_iff` CPQ, `C02_parse_never_panics` CPQ, `C02_parse_err_iff` CPQ |
| C03 | `C03_canonical_fixpoint` CPQ, `C03_display_of_parse` CPQ |
| C04 | `C04_accepted_valid` CPQ, `C04_valid_accepted` CPQ |
| C05 | `C05_num_bytes` CPQ, `C05_num_bytes_none` CPQ, `C05_uses_pickled` P, `C05_scalar_num_bytes` CPQ |
| C06 | `C06_descr_roundtrip` CPQ, `C06_descr_injective` CPQ |
| C07 | `C07_round_trip` CPQ |
| C08 | `C08_aligned` CPQ, `C08_text` CPQ |
| C09 | `C09_version` CPQ, `C09_success_partial` CPQ, `C09_long_ascii_panics` CPQ, `C09_violated` CPQ |
| C10 | `C10_consumes_header` CPQ, `C10_local` CPQ, `C10_outcome_local` CPQ |
| C11 | `C11_not_npy` CPQ, `C11_unknown_version` CPQ, `C11_truncated_header` CPQ |
| C12 | `C12_accepted_iff` CPQ, `C12_only_three_keys` CPQ, `C12_permutation` CPQ, `C12_rejected` CPQ, `C12_not_dict` CPQ |
| C13 | `C13_shape_exact` PQ, `C13_shape_rejected` PQ, `C13_header_shape` CPQ |
| C14 | `C14_violated` CPQ, `C14_never_panics_partial` CPQ, `C14_panic_causes_partial` CPQ |
| C15 | `C15_len_is_product` CPQ, `C15_len_total` PQ, `C15_len_zero` PQ |
| C16 | `C16_strides_bijective` CPQ, `C16_strides_order` CPQ, `C16_strides_length` PQ |
| C17 | `C17_len` CPQ, `C17_next` CPQ, `C17_seek` CPQ |
| C18 | `C18_violated` CPQ, `C18_random_access_partial` CPQ, `C18_agrees_partial` CPQ |
| C19 | `C19_violated` CPQ, `C19_after_errors_partial` CPQ, `C19_lost_place` CPQ |
| C20 | `C20_out_of_range` CPQ, `C20_violated` CPQ, `C20_in_range_partial` CPQ |
| C21 | `C21_into_vec` CPQ, `C21_truncated` CPQ, `C21_trailing` CPQ |
| C22 | `C22_open` CPQ, `C22_history` CPQ, `C22_read_file` CPQ |
| C23 | `C23_header_fault` CPQ, `C23_element_fault` CPQ, `C23_history` CPQ, `C23_read_file` CPQ |
| C24 | `C24_refused` CPQ, `C24_no_type` CPQ, `C24_others` CPQ |
| C25 | `C25_try_data` CPQ, `C25_attempts` CPQ |
| C26 | `C26_write_size` CPQ, `C26_write_total` CPQ, `C26_read_size` CPQ, `C26_read_total` CPQ |
| C27 | `C27_roundtrip_all` CPQ, `C27_exact_roundtrip` CPQ, `C27_number` CPQ, `C27_bool` CPQ, `C27_complex` CPQ, `C27_both_orders` CPQ |
| C28 | `C28_number_bytes` CPQ, `C28_number_value` CPQ, `C28_complex_bytes` CPQ, `C28_machine_independent` CPQ, `C28_machine_independent_read` CPQ |
| C29 | `C29_bool_strict` CPQ |
| C30 | `C30_byte_str` CPQ, `C30_raw` CPQ |
| C31 | `C31_string` CPQ, `C31_string_decode` CPQ, `C31_u32_decode` CPQ, `C31_u32_write` CPQ |
| C32 | `C32_utf8` CPQ, `C32_decode` CPQ |
| C33 | `C33_accepts` CPQ, `C33_roundtrip` CPQ |
| C34 | `C34_raw_violated` CPQ, `C34_array_vec_u8_partial` CPQ, `C34_array_vec_char` CPQ, `C34_array_vec_u32` CPQ, `C34_fitPrefix_longest` CPQ, `C34_array_string` CPQ |
| C35 | `C35_accepts` CPQ, `C35_layout` CPQ, `C35_readback` PQ |
| C36 | `C36_accepts` CPQ, `C36_names` CPQ, `C36_layout` CPQ |
| C37 | `C37_reader` CPQ, `C37_writer` CPQ, `C37_64bit` CPQ, `C37_no_panic` CPQ, `C37_read_write` CPQ, `C37_write_read` CPQ, `C37_no_objects` CPQ, `C37_write_read_iff` CPQ |
| C38 | `C38_default` CPQ |
| C39 | `C39_round_trip` CPQ, `C39_exact` CPQ, `C39_succeeds` CPQ |
| C40 | `C40_round_trip` CPQ, `C40_exact` CPQ, `C40_to_file_1d` CPQ |
| C41 | `C41_only_placeholder` CPQ, `C41_position` CPQ |
| C42 | `C42_finish_drop` CPQ |
| C43 | `C43_two_d` CPQ, `C43_nd_partial` CPQ, `C43_violated` CPQ |
| C44 | `C44_zero_panics` CPQ, `C44_violated` CPQ, `C44_nonzero_partial` CPQ |
| C45 | `C45_counts_attempts` CPQ, `C45_all_ok_partial` CPQ, `C45_violated` CPQ |
| C46 | `C46_session` CPQ, `C46_unfinished` CPQ, `C46_nd` CPQ |
| C47 | `C47_torn` CPQ |
| C48 | `C48_refused_partial` CPQ, `C48_violated` CPQ |
| C49 | `C49_last_wins` CPQ, `C49_swap` CPQ, `C49_permute` CPQ |
| C50 | `C50_element_offset` CPQ |
| C51 | `C51_array_name` CPQ, `C51_round_trip` CPQ, `C51_injective` CPQ, `C51_index` CPQ |
| C52 | `C52_found` CPQ, `C52_found_exact` CPQ, `C52_absent` CPQ, `C52_listed` CPQ, `C52_violated` CPQ, `C52_lookup_partial` CPQ |
| C53 | `C53_round_trip` CPQ, `C53_exact` CPQ, `C53_coo` CPQ, `C53_csr` CPQ, `C53_csc` CPQ, `C53_dia` CPQ, `C53_bsr` CPQ, `C53_succeeds` CPQ, `C53_succeeds_exact` CPQ, `C53_checks` CPQ |
| C54 | `C54_stored_partial` CPQ, `C54_unsigned_partial` CPQ, `C54_read_back` CPQ, `C54_violated` CPQ |
| C55 | `C55_dispatch` CPQ, `C55_rejected` CPQ, `C55_format` CPQ, `C55_unknown` CPQ |
| C56 | `C56_shape_partial` CPQ, `C56_no_offsets` CPQ, `C56_violated` CPQ |
| C57 | `C57_no_panic` CPQ |
| C58 | `C58_violated` CPQ, `C58_agrees_partial` CPQ, `C58_iteration_partial` PQ |
| C59 | `C59_item_size_exact` CPQ, `C59_oversized_refused` CPQ |
| C60 | `C60_violated` P, `C60_documented_defaults_partial` PQ |
| C61 | `C61_panics_partial` CPQ, `C61_violated` CPQ |
| C62 | `C62_coo` CPQ, `C62_csr` CPQ, `C62_csc` CPQ, `C62_dia` CPQ, `C62_bsr` CPQ |
| C63 | `C63_session` CPQ, `C63_steps` CPQ, `C63_to_file` CPQ |
| C64 | `C64_success` CPQ, `C64_reads_back` CPQ, `C64_reported` CPQ, `C64_finish` CPQ |
| C65 | `C65_position_partial` CPQ, `C65_known_shape_partial` CPQ, `C65_violated` CPQ |
| C66 | `C66_torn` CPQ, `C66_limit` CPQ |
| C67 | `C67_consecutive` CPQ, `C67_before` CPQ |
| C68 | `C68_grouping` P, `C68_same_file` P |
| C69 | `C69_same_file` CPQ, `C69_same_meaning` CPQ |
| C70 | `C70_never_wrong` CPQ, `C70_read` CPQ |
| C71 | `C71_reader_partial` CPQ, `C71_writer_partial` CPQ, `C71_fields_swapped` CPQ, `C71_data_partial` CPQ, `C71_violated` CPQ, `C71_excludes` CPQ |
| C72 | `C72_explained` CPQ, `C72_all_refused` CPQ, `C72_excludes` CPQ |
| C73 | `C73_understood_partial` CPQ, `C73_violated` CPQ |
| C74 | `C74_numpy_reads_partial` CPQ, `C74_header_partial` CPQ, `C74_refused` CPQ, `C74_header_refused` CPQ, `C74_violated` CPQ |
| C75 | `C75_transparent` CPQ, `C75_to_file` CPQ |
| C76 | `C76_success` CPQ, `C76_reported` CPQ |
| C77 | `C77_unfinished` CPQ, `C77_never_wrong` CPQ |
| C78 | `C78_next_partial` CPQ, `C78_read_file_partial` CPQ, `C78_causes_partial` CPQ, `C78_violated` CPQ |
| C79 | `C79_appends` CPQ, `C79_header` CPQ |
| C80 | `C80_returns_partial` CPQ, `C80_violated` CPQ |
| C81 | `C81_read_iff` CPQ, `C81_one_meaning` CPQ, `C81_otherwise_error` CPQ, `C81_parse_iff` CPQ, `C81_header_says` CPQ |
| C82 | `C82_sequential_order` CPQ, `C82_by_index` CPQ, `C82_by_index_auto` CPQ |
| C83 | `C83_violated` CPQ, `C83_violated_items` CPQ, `C83_header_partial` CPQ, `C83_element_partial` CPQ, `C83_complete_partial` CPQ |
| C84 | `C84_accepts` PQ, `C84_random_access` PQ, `C84_collect` CPQ, `C84_sequential` PQ, `C84_schedule` CPQ |
| C85 | `C85_file` CPQ, `C85_round_trip` CPQ |
| C86 | `C86_unfinished` CPQ, `C86_nd` CPQ, `C86_torn` CPQ, `C86_transparent` CPQ, `C86_success` CPQ, `C86_reported` CPQ, `C86_left` CPQ, `C86_buffer_transparent` CPQ, `C86_buffer_success` CPQ, `C86_buffer_left` CPQ, `C86_never_wrong` CPQ |
| C87 | `C87_accepts` CPQ, `C87_session` CPQ, `C87_streams` P, `C87_crash` CPQ |
| C88 | `C88_same` CPQ, `C88_array_accepts` CPQ, `C88_struct_accepts` CPQ, `C88_struct_accepts_write` CPQ, `C88_default` CPQ, `C88_library` CPQ, `C88_array_reader` CPQ, `C88_array_writer` CPQ, `C88_struct_reader` CPQ, `C88_no_fields` CPQ, `C88_struct_fields` PQ, `C88_struct_writer` CPQ, `C88_struct_field_writers` PQ, `C88_pointer_writer` PQ, `C88_library_round_trip` CPQ, `C88_array_round_trip` CPQ, `C88_struct_round_trip` CPQ, `C88_read` CPQ, `C88_round_trip` CPQ |
| C89 | `C89_new` CPQ, `C89_position` CPQ, `C89_same_data` CPQ, `C89_same_rest` PQ, `C89_cut` CPQ, `C89_write` CPQ, `C89_write_failed` CPQ, `C89_write_panics` CPQ |
| C90 | `C90_same_bytes` CPQ, `C90_library` CPQ, `C90_exact` CPQ |
| C91 | `C91_never_wrong` CPQ, `C91_formats` CPQ, `C91_by_name` CPQ, `C91_harmless` CPQ, `C91_round_trip` CPQ |
| C92 | `C92_success` CPQ, `C92_reads_back` CPQ, `C92_left_over` CPQ, `C92_array` CPQ |
| C93 | `C93_lost_partial` CPQ, `C93_array_partial` CPQ, `C93_violated` CPQ |
| C94 | `C94_item` CPQ, `C94_copy` CPQ, `C94_again` CPQ |
| C95 | `C95_text_reads` CPQ, `C95_bytes_reads` CPQ, `C95_fixed_reads` CPQ, `C95_capacity_reads` CPQ, `C95_text_writes` CPQ, `C95_bytes_writes` CPQ, `C95_capacity_writes` CPQ |
| C96 | `C96_version` CPQ, `C96_padding` CPQ, `C96_file` CPQ, `C96_frame` CPQ |
| C97 | `C97_written` CPQ, `C97_read` CPQ, `C97_replace` CPQ |
| C98 | `C98_strides` CPQ, `C98_index` CPQ, `C98_hints` -, `C98_relabel` CPQ, `C98_transpose` CPQ |
| C99 | `C99_copy_partial` CPQ, `C99_scipy` CPQ, `C99_violated` CPQ |
| C100 | `C100_open_kinds` CPQ, `C100_open_damaged` CPQ, `C100_open_truncated` CPQ, `C100_next` CPQ, `C100_kinds` CPQ, `C100_more` CPQ, `C100_prefix` CPQ, `C100_eof` CPQ, `C100_tiny` CPQ |
| C101 | `C101_bounded_partial` CPQ, `C101_violated` CPQ |
| C102 | `C102_accepts` CPQ, `C102_involution` PQ, `C102_read` CPQ, `C102_write` CPQ, `C102_file` CPQ |
| C103 | `C103_alike` CPQ, `C103_unique` CPQ, `C103_refused` CPQ, `C103_default` CPQ |
| C104 | `C104_header` CPQ, `C104_others` CPQ, `C104_noticed` CPQ, `C104_read_at` CPQ |
| C105 | `C105_readable` CPQ |
| C106 | `C106_by_name` CPQ, `C106_one` CPQ, `C106_names` CPQ, `C106_sparse` CPQ |
| C107 | `C107_open` CPQ, `C107_types` CPQ, `C107_read` CPQ, `C107_write` CPQ |
| C108 | `C108_coo_partial` CPQ, `C108_csr_partial` CPQ, `C108_csc_partial` CPQ, `C108_bsr_partial` CPQ, `C108_dia_partial` CPQ, `C108_violated` CPQ, `C108_machines` CPQ |
| C109 | `C109_names` CPQ, `C109_write` CPQ, `C109_read_partial` CPQ, `C109_violated` CPQ |
| C110 | `C110_outside` CPQ, `C110_crash_outside` CPQ, `C110_unfinished_partial` CPQ, `C110_nd_partial` CPQ, `C110_violated` CPQ |
| C111 | `C111_save_partial` CPQ, `C111_push_partial` CPQ, `C111_long_string` CPQ, `C111_violated` CPQ |
| C112 | `C112_unchanged_iff` CPQ, `C112_second_time` CPQ, `C112_numbers` PQ |
| C113 | `C113_complete` CPQ, `C113_incomplete_partial` CPQ, `C113_violated` CPQ |
| C114 | `C114_open` CPQ, `C114_next` CPQ, `C114_pipe` CPQ |
| C115 | `C115_descr` CPQ, `C115_message` CPQ, `C115_reader` CPQ, `C115_writer` CPQ, `C115_scalar` CPQ |
| C116 | `C116_seeks_partial` CPQ, `C116_shifted` CPQ, `C116_violated` CPQ |
| C117 | `C117_nth` CPQ, `C117_count` CPQ, `C117_last` CPQ, `C117_window` CPQ |
| C118 | `C118_open` CPQ, `C118_history` CPQ, `C118_read_file` CPQ, `C118_transparent` CPQ |
| C119 | `C119_open` CPQ, `C119_read_file` CPQ, `C119_history` CPQ, `C119_complete` CPQ, `C119_eventually` CPQ, `C119_buffered_writer` CPQ, `C119_buffered_moments` CPQ |
| C120 | `C120_implements_partial` CPQ, `C120_violated_name` CPQ, `C120_violated_type` CPQ, `C120_violated_module` CPQ, `C120_violated_generic` CPQ, `C120_refused` CPQ |
| C121 | `C121_open` CPQ, `C121_read_file` CPQ, `C121_history` CPQ, `C121_sessions` CPQ, `C121_moments` PQ, `C121_undisturbed` CPQ |
| C122 | `C122_understood` CPQ, `C122_formats` CPQ, `C122_fortran` CPQ |
| C123 | `C123_loads_partial` CPQ, `C123_exact_partial` CPQ, `C123_refused` CPQ, `C123_violated` CPQ |
| C124 | `C124_understood` CPQ, `C124_listed` CPQ, `C124_same_bytes_partial` CPQ, `C124_written_partial` CPQ, `C124_shadowed` CPQ, `C124_violated` CPQ |
| C125 | `C125_loaded_partial` CPQ, `C125_strides` CPQ, `C125_three` PQ, `C125_round_trip` CPQ, `C125_layout` CPQ, `C125_refused` CPQ, `C125_violated` CPQ |
| C126 | `C126_until_partial` CPQ, `C126_shifted` CPQ, `C126_violated` CPQ |
| C127 | `C127_bounded_partial` CPQ, `C127_deep` CPQ, `C127_violated` CPQ |
| C128 | `C128_opened` CPQ, `C128_opens_partial` CPQ, `C128_one_meaning` CPQ, `C128_refused` CPQ, `C128_too_large` CPQ, `C128_opens_unchecked` CPQ, `C128_panics` CPQ, `C128_opens_checked` CPQ, `C128_violated` CPQ |
| C129 | `C129_slice` CPQ, `C129_stacked` CPQ, `C129_appended` CPQ |
| C130 | `C130_entangled` CPQ, `C130_turns_partial` CPQ, `C130_disturbed` CPQ, `C130_violated` CPQ |
| C131 | `C131_known_partial` CPQ, `C131_reads_back_partial` CPQ, `C131_lost` CPQ, `C131_violated` CPQ |
| C132 | `C132_passed` CPQ, `C132_no_items` CPQ, `C132_library_partial` CPQ, `C132_written` CPQ, `C132_violated` CPQ |
| C133 | `C133_arrays` CPQ, `C133_complex` CPQ, `C133_written` CPQ |
<!-- end axioms -->
