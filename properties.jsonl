{"id": "C01", "title": "Scalar reads are exact, bounded, little-endian slices", "statement": "Reading a w-byte integer at position p of a buffer succeeds exactly when p + w <= length; then it returns the little-endian value of bytes p..p+w and moves the position to p + w. When it fails the position is unchanged and nothing is returned. No byte outside the buffer is ever touched.", "quantifier": "all buffers, all positions that fit an address (p + w below 2^64), all widths", "why_tests_cant": "There are unboundedly many buffers and positions; a test can only show a few and cannot show that no out-of-range byte is read by the raw-pointer cast.", "anchors": ["binary_reader/src/lib.rs: BinaryReader::peek", "binary_reader/src/lib.rs: BinaryReader::read", "binary_reader/src/lib.rs: BinaryReader::advance"]}
{"id": "C02", "title": "Array reads are all-or-nothing and equal element-wise reads", "statement": "Reading an array of n elements of w bytes succeeds exactly when n*w bytes remain, gives the same values as n successive scalar reads, and ends at the same position; when it fails the position is unchanged.", "quantifier": "all buffers, positions, element widths and counts whose product fits an address", "why_tests_cant": "Needs an induction over the count; tests sample counts.", "anchors": ["binary_reader/src/lib.rs: BinaryReader::read_array"]}
{"id": "C03", "title": "Peeking agrees with reading", "statement": "A peek of a scalar or of an array returns exactly what the corresponding read would return, and does not move the position.", "quantifier": "all buffers, positions, widths and counts", "why_tests_cant": "The disagreement happens only when the array ends exactly at the end of the buffer, a boundary ordinary tests do not hit.", "anchors": ["binary_reader/src/lib.rs: BinaryReader::peek", "binary_reader/src/lib.rs: BinaryReader::peek_array", "binary_reader/src/lib.rs: BinaryReader::read_array"]}
{"id": "C04", "title": "Strings stop at the first NUL and respect UTF-8", "statement": "A fixed-length string read returns the text of the bytes before the first NUL (or all of them) provided they are valid UTF-8, and consumes exactly the requested length; a C-string read returns the text before the next NUL and stops on the NUL. Encoding any text without NUL and reading it back gives the same text.", "quantifier": "all texts, all buffers that hold them at any position", "why_tests_cant": "Quantifies over every Unicode text and every surrounding buffer.", "anchors": ["binary_reader/src/lib.rs: BinaryReader::read_str", "binary_reader/src/lib.rs: BinaryReader::read_c_str"]}
{"id": "C05", "title": "PE parsing never crashes", "statement": "Parsing an arbitrary byte string as a PE file always returns either a parsed image or a format error; it never panics and never reads outside the input.", "quantifier": "all byte strings of length below 2^63, debug and release builds", "why_tests_cant": "The input space is all byte strings; the parser uses raw pointer casts that only a proof over all inputs can clear.", "anchors": ["clr_lite/src/pe.rs: PeInfo::parse_pe", "binary_reader/src/lib.rs: BinaryReader"]}
{"id": "C06", "title": "PE header round trip", "statement": "For every image description (PE32 or PE32+, any header field values, any list of data directories and sections) written in the PE layout at any header offset, parsing returns exactly those data directories, section headers and header fields.", "quantifier": "all image descriptions within field widths, all header offsets, arbitrary other bytes", "why_tests_cant": "A round trip over all headers, counts and offsets cannot be enumerated.", "anchors": ["clr_lite/src/pe.rs: PeInfo::parse_pe", "clr_lite/src/pe.rs: Pe32OptionalHeader", "clr_lite/src/pe.rs: Pe64OptionalHeader", "clr_lite/src/pe.rs: PeSectionHeader"]}
{"id": "C07", "title": "RVA resolution maps into the containing section", "statement": "For section tables whose address ranges do not wrap 32 bits and do not overlap, an RVA that lies in a section's raw range resolves to that section's file pointer plus the distance from its start, whatever the section order; an RVA in no section is an error; and distinct RVAs of one section resolve to distinct offsets.", "quantifier": "all section lists, all RVAs", "why_tests_cant": "Order-independence and uniqueness quantify over all permutations and all section lists.", "anchors": ["clr_lite/src/pe.rs: PeInfo::resolve_rva", "clr_lite/src/pe.rs: PeInfo::resolve_rva_"]}
{"id": "C08", "title": "Hostile section headers do not crash RVA resolution", "statement": "Resolving an RVA against arbitrary section headers returns an offset or an error in every build mode, and both build modes agree.", "quantifier": "all section headers with arbitrary 32-bit fields, all RVAs, both build modes", "why_tests_cant": "Only sections near the 2^32 boundary trigger arithmetic overflow; ordinary files never do.", "anchors": ["clr_lite/src/pe.rs: PeInfo::resolve_rva_"]}
{"id": "C09", "title": "Metadata streams are found wherever they are placed", "statement": "For a metadata root listing the known streams in any order with any offsets and sizes inside the metadata, loading exposes for each stream exactly the bytes offset..offset+size; an unknown stream name is a format error.", "quantifier": "all stream directories (any order, any number of entries, any version string length multiple of four)", "why_tests_cant": "All orders, padding cases and sizes cannot be enumerated.", "anchors": ["clr_lite/src/metadata/mod.rs: Metadata::read"]}
{"id": "C10", "title": "Malformed assemblies are rejected with an error", "statement": "Reading metadata from an arbitrary byte string returns a value or a format error and never panics.", "quantifier": "all byte strings", "why_tests_cant": "A crash needs a file that is well-formed up to the point of failure; random or hand-written tests rarely get there.", "anchors": ["clr_lite/src/metadata/mod.rs: Metadata::read", "clr_lite/src/metadata/tables/mod.rs: TableReader::read"]}
{"id": "C11", "title": "Entry point names the method of the CLI header token", "statement": "For an executable whose CLI header entry-point token is method row k, the assembly's entry point is the method of row k.", "quantifier": "all assemblies with a method table of any size and any k in range", "why_tests_cant": "The shipped tests call methods by name and never use the entry point; the claim is over all tables and rows.", "anchors": ["clr_lite/src/metadata/mod.rs: Metadata::read", "clr_lite/src/vm/reflection/assembly.rs: Assembly::entry_point", "clr_lite/src/vm/reflection/assembly.rs: Assembly::resolve_method"]}
{"id": "C12", "title": "String heap lookups are pure and exact", "statement": "A lookup at any index returns the valid UTF-8 text from that index to the next NUL, or nothing if the index is out of range, unterminated or not UTF-8; the answer does not depend on which lookups were made earlier; and every suffix of a stored string is addressable.", "quantifier": "all heaps, all indices, all histories of earlier lookups", "why_tests_cant": "The lookup mutates a cache; independence from history is a statement about all sequences of calls.", "anchors": ["clr_lite/src/metadata/strings_heap.rs: StringsHeap::get"]}
{"id": "C13", "title": "User-string literals round trip", "statement": "A literal stored in the user-string heap (compressed byte count, UTF-16LE code units, one trailing byte) is returned by a string token as exactly the same code units, whatever precedes or follows it in the heap.", "quantifier": "all sequences of UTF-16 code units up to the format's size limit, all heap contexts", "why_tests_cant": "All strings and all heap layouts; the three length-prefix sizes each have their own boundary.", "anchors": ["clr_lite/src/vm/reflection/assembly.rs: Assembly::get_string", "clr_lite/src/metadata/blob/blob_reader.rs: BlobReader::new", "clr_lite/src/metadata/blob/blob_reader.rs: BlobReader::read_utf16_str"]}
{"id": "C14", "title": "Embedded resources are extracted exactly", "statement": "A resource stored as a little-endian length followed by its bytes at offset o of the resources directory is returned as exactly those bytes, independent of neighbouring resources.", "quantifier": "all resource contents, offsets and neighbouring bytes", "why_tests_cant": "All contents and placements.", "anchors": ["clr_lite/src/metadata/mod.rs: Metadata::get_resource_data", "clr_lite/src/metadata/mod.rs: Metadata::get_pe_data"]}
{"id": "C15", "title": "Metadata tokens pack and unpack", "statement": "A token built from a table and a row index below 2^24 reports that table and that index, and two such tokens are equal only if both parts are equal.", "quantifier": "all 256 table codes, all indices below 2^24", "why_tests_cant": "2^32 combinations; also injectivity.", "anchors": ["clr_lite/src/metadata/metadata_token.rs: MetadataToken::new", "clr_lite/src/metadata/metadata_token.rs: MetadataToken::table", "clr_lite/src/metadata/metadata_token.rs: MetadataToken::index"]}
{"id": "C16", "title": "Compressed unsigned integers round trip", "statement": "Every integer below 2^29 encoded in the ECMA-335 II.23.2 compressed form decodes to itself and consumes exactly the bytes of its encoding, whatever follows; decoding arbitrary bytes never panics and never consumes more than four bytes.", "quantifier": "all integers below 2^29, all following bytes, all byte strings", "why_tests_cant": "Half a billion values with three encodings and arbitrary suffixes.", "anchors": ["clr_lite/src/metadata/blob/blob_reader.rs: BlobReader::read_compressed_u32"]}
{"id": "C17", "title": "A blob reader is confined to its blob", "statement": "A reader opened on a blob sees exactly the declared number of bytes: what it decodes depends only on those bytes, and never on what follows them in the heap; empty blobs are readable as empty.", "quantifier": "all heaps, all blob offsets with a complete blob, all decoders built from the reader", "why_tests_cant": "Non-interference over all trailing heap contents.", "anchors": ["clr_lite/src/metadata/blob/blob_reader.rs: BlobReader::new", "clr_lite/src/metadata/blob_heap.rs: BlobHeap::new_reader"]}
{"id": "C18", "title": "Opening a blob never crashes", "statement": "Opening a blob at any offset of any heap returns a reader or an error.", "quantifier": "all heaps, all offsets", "why_tests_cant": "Crash needs a length prefix running past the heap end.", "anchors": ["clr_lite/src/metadata/blob/blob_reader.rs: BlobReader::new", "clr_lite/src/metadata/blob_heap.rs: BlobHeap::new_reader"]}
{"id": "C19", "title": "Type signatures round trip", "statement": "Every element type (primitives, pointers, by-refs, class and value-type handles, generic parameters, generic instances, and arrays whose lower bounds are zero (C21 is about the others), nested to any depth) encoded per ECMA-335 II.23.1.16 / II.23.2 decodes to itself and consumes exactly its encoding.", "quantifier": "all element-type trees of any depth and width with indices in range", "why_tests_cant": "Structural induction over an infinite family of trees.", "anchors": ["clr_lite/src/metadata/blob/element_type.rs: BlobReader::read_element_type", "clr_lite/src/metadata/blob/type_def_or_ref.rs: BlobReader::read_type_def_or_ref", "clr_lite/src/metadata/blob/array_shape.rs: BlobReader::read_array_shape"]}
{"id": "C20", "title": "Type signature decoding is total", "statement": "Decoding an element type from arbitrary blob contents always terminates with a type or an error, without panicking, and never moves past the end of the blob.", "quantifier": "all byte strings", "why_tests_cant": "Termination on all inputs of a recursive decoder.", "anchors": ["clr_lite/src/metadata/blob/element_type.rs: BlobReader::read_element_type"]}
{"id": "C21", "title": "Array lower bounds decode as written", "statement": "A multi-dimensional array shape with given ranks, sizes and (signed) lower bounds encoded per ECMA-335 II.23.2.13 decodes to the same rank, sizes and lower bounds.", "quantifier": "all array shapes", "why_tests_cant": "Existing tests use only zero lower bounds.", "anchors": ["clr_lite/src/metadata/blob/array_shape.rs: BlobReader::read_array_shape"]}
{"id": "C22", "title": "Method, field, property, type-spec and method-spec signatures round trip", "statement": "Every method signature (instance, explicit this, vararg, generic arity, return type, parameter list), field, property, TypeSpec and MethodSpec signature encoded per ECMA-335 II.23.2 decodes to itself.", "quantifier": "all signatures with any number of parameters of any types", "why_tests_cant": "Unbounded parameter lists and nested types.", "anchors": ["clr_lite/src/metadata/blob/method_signature.rs: BlobReader::read_method_signature", "clr_lite/src/metadata/blob/field_signature.rs: BlobReader::read_field_signature", "clr_lite/src/metadata/blob/property_signature.rs: BlobReader::read_property_signature", "clr_lite/src/metadata/blob/method_spec.rs: BlobReader::read_method_spec", "clr_lite/src/metadata/blob/type_spec.rs: BlobReader::read_type_spec"]}
{"id": "C23", "title": "Signature decoding never crashes on hostile blobs", "statement": "Decoding a field, method, property, TypeSpec or MethodSpec signature from arbitrary blob contents returns a signature or an error.", "quantifier": "all byte strings", "why_tests_cant": "The crash needs a custom modifier byte in one position of one signature kind.", "anchors": ["clr_lite/src/metadata/blob/field_signature.rs: BlobReader::read_field_signature", "clr_lite/src/metadata/blob/method_signature.rs: BlobReader::read_method_signature"]}
{"id": "C24", "title": "Marshalling descriptors round trip", "statement": "Every scalar or array marshalling descriptor encoded per ECMA-335 II.23.4 with its optional trailing parts present or absent decodes to itself.", "quantifier": "all descriptors, all optional-part combinations with non-zero counts", "why_tests_cant": "All values of the two optional counts.", "anchors": ["clr_lite/src/metadata/blob/marshalling_descriptor.rs: BlobReader::read_marshalling_descriptor"]}
{"id": "C25", "title": "Coded indices decode to the table and row they encode", "statement": "For each of the thirteen coded-index kinds, encoding a permitted (table, row) pair with the ECMA-335 II.24.2.6 tag and reading it back (2- or 4-byte column) gives that table and row; any other tag is an error.", "quantifier": "all kinds, all permitted tables, all rows that fit the column", "why_tests_cant": "Thirteen kinds times all rows times two widths.", "anchors": ["clr_lite/src/metadata/tables/mod.rs: TableReader", "clr_lite/src/metadata/tables/coded_index/mod.rs", "clr_lite/src/metadata/tables/coded_index/has_custom_attribute.rs"]}
{"id": "C26", "title": "Column widths follow ECMA-335", "statement": "The width (2 or 4 bytes) used for every heap index, table index and coded index column is the one ECMA-335 II.24.2.6 prescribes for the file's heap-size flags and row counts.", "quantifier": "all heap-size flag values and all row-count vectors", "why_tests_cant": "The difference shows only for a table of exactly 2^(16-n) rows.", "anchors": ["clr_lite/src/metadata/tables/mod.rs: TableReader::read", "clr_lite/src/metadata/tables/mod.rs: LARGE_ROW_SIZE"]}
{"id": "C27", "title": "Table stream round trip", "statement": "For every set of metadata tables (any number of rows in each of the 38 supported tables, any column values legal for their column) written in the ECMA-335 II.24.2.6 layout, reading the table stream returns exactly those rows in every table.", "quantifier": "all table contents, all heap-size flags, all presence masks over supported tables", "why_tests_cant": "Unbounded number of rows and all width combinations; a misread column shifts everything after it.", "anchors": ["clr_lite/src/metadata/tables/mod.rs: TableReader::read", "clr_lite/src/metadata/tables/mod.rs: TableReader::read_tables", "clr_lite/src/metadata/tables/*.rs: read_row"]}
{"id": "C28", "title": "Unsupported tables do not corrupt supported ones", "statement": "A file that also contains tables the library does not decode (for example the edit-and-continue or pointer tables) still yields correct rows for the supported tables, or is rejected with an error.", "quantifier": "all files with a non-empty unsupported table", "why_tests_cant": "Needs files no mainstream compiler emits in release mode.", "anchors": ["clr_lite/src/metadata/tables/mod.rs: TableReader::read", "clr_lite/src/metadata/tables/mod.rs: TableReader::read_tables"]}
{"id": "C29", "title": "Row handles address the row they were made for", "statement": "For every table, the handle produced for the i-th row when iterating addresses the i-th row when used for lookup, for all i below the row count.", "quantifier": "all tables, all row indices", "why_tests_cant": "Each of 38 tables has its own conversion; tests cover some rows of some tables.", "anchors": ["clr_lite/src/metadata/tables/mod.rs: Table", "clr_lite/src/metadata/tables/interface_impl.rs: InterfaceImplHandle"]}
{"id": "C30", "title": "Attribute words decode bit by bit", "statement": "Each decoded attribute record (type, field, method, method-implementation, parameter, property, event, semantics, P/Invoke, generic parameter) reports exactly the flags ECMA-335 II.23.1 assigns to the bits of the raw word, ignores unrelated bits, and rejects exactly the reserved combinations.", "quantifier": "all 16- and 32-bit raw attribute words", "why_tests_cant": "2^32 words; each flag must be independent of all other bits.", "anchors": ["clr_lite/src/metadata/tables/type_def.rs: TypeAttributes", "clr_lite/src/metadata/tables/field.rs: FieldAttributes", "clr_lite/src/metadata/tables/method_def.rs: MethodAttributes", "clr_lite/src/metadata/tables/impl_map.rs: PInvokeAttributes", "clr_lite/src/metadata/tables/generic_param.rs: GenericParamAttributes"]}
{"id": "C31", "title": "Tiny method bodies decode to their code", "statement": "A tiny-format method body of up to 63 code bytes yields exactly those bytes, a maximum stack of 8, no locals and no exception clauses, whatever follows it in the file.", "quantifier": "all code byte strings shorter than 64, all following bytes", "why_tests_cant": "All code strings and contexts.", "anchors": ["clr_lite/src/vm/reflection/method_body.rs: MethodBody::load"]}
{"id": "C32", "title": "Fat method bodies decode to their code and limits", "statement": "A fat-format method body yields exactly its code bytes, maximum stack, init-locals flag and local variable types for any code length.", "quantifier": "all code byte strings below 2^32 bytes, all limits, all following bytes", "why_tests_cant": "All code strings and contexts.", "anchors": ["clr_lite/src/vm/reflection/method_body.rs: MethodBody::load"]}
{"id": "C33", "title": "Exception clauses round trip", "statement": "A list of exception clauses (typed catch, filter, finally, fault) attached to a fat body in the small or the fat section format is decoded to the same list in the same order.", "quantifier": "all clause lists within the section size limit, both formats, all code lengths (all padding cases)", "why_tests_cant": "All list lengths, kinds, padding cases and both formats.", "anchors": ["clr_lite/src/vm/reflection/method_body.rs: MethodBody::load", "clr_lite/src/vm/reflection/method_body.rs: ExceptionClause::new"]}
{"id": "C34", "title": "Type ids are positions in the type list", "statement": "After any sequence of successful or failed type loads and array-type creations, the i-th registered type has id i; therefore looking up an object's type by the id in its header gives the type it was allocated with.", "quantifier": "all sequences of registrations", "why_tests_cant": "Invariant over all histories.", "anchors": ["clr_lite/src/vm/mod.rs: ClrLite::add_type", "clr_lite/src/vm/mod.rs: ClrLite::next_type_id", "clr_lite/src/vm/reflection/type.rs: Type::load", "clr_lite/src/vm/reflection/type.rs: Type::get_or_create_array_type", "clr_lite/src/vm/gc/object.rs: Object::type"]}
{"id": "C35", "title": "Lookup by name returns the latest registration and never loses a name", "statement": "Looking up a full type name returns the most recently registered type of that name; once a name resolves it resolves for ever.", "quantifier": "all sequences of registrations, all names", "why_tests_cant": "Invariant over all histories.", "anchors": ["clr_lite/src/vm/mod.rs: ClrLite::get_type", "clr_lite/src/vm/mod.rs: ClrLite::add_type"]}
{"id": "C36", "title": "Array types are unique per element type", "statement": "Asking twice for the array type of an element type gives the same type, with that element type, and registers at most one new type; different element types get different array types.", "quantifier": "all registries, all element types, all interleavings", "why_tests_cant": "Statement about all interleavings of requests.", "anchors": ["clr_lite/src/vm/reflection/type.rs: Type::get_or_create_array_type", "clr_lite/src/vm/reflection/type.rs: Type::array_type"]}
{"id": "C37", "title": "Subtyping covers base classes and interfaces", "statement": "instance_of is reflexive, holds for every ancestor class and for every interface implemented by the type or an ancestor, and for nothing else.", "quantifier": "all class hierarchies of any depth", "why_tests_cant": "All hierarchies; tests have none with both a base and an interface.", "anchors": ["clr_lite/src/vm/reflection/type.rs: Type::instance_of"]}
{"id": "C38", "title": "Instance fields do not overlap and lie inside the object", "statement": "For every loaded class, the byte ranges of its instance fields (including inherited ones) are pairwise disjoint and lie within the object's size.", "quantifier": "all class hierarchies and field lists", "why_tests_cant": "All hierarchies and field type mixes; violations need static or reference fields before other fields.", "anchors": ["clr_lite/src/vm/reflection/type.rs: Type::resolve_fields", "clr_lite/src/vm/reflection/type.rs: Type::size", "clr_lite/src/vm/reflection/field.rs: Field"]}
{"id": "C39", "title": "Method and field tokens resolve to their rows", "statement": "After loading an assembly whose type rows partition the method and field tables into consecutive runs, the method (field) token with row k resolves to the method (field) defined by row k, for every k; row numbers beyond the table give nothing, and the nil token never gives a method (field).", "quantifier": "all method and field tables and all partitions into types (including empty types)", "why_tests_cant": "All partitions; off-by-one errors appear only at run boundaries.", "anchors": ["clr_lite/src/vm/reflection/assembly.rs: Assembly::resolve_method", "clr_lite/src/vm/reflection/assembly.rs: Assembly::resolve_field", "clr_lite/src/vm/reflection/type.rs: Type::resolve_methods", "clr_lite/src/vm/reflection/type.rs: Type::resolve_fields"]}
{"id": "C40", "title": "Member references resolve to the referenced member", "statement": "A call through member-reference row k reaches the method that row names (declaring type, name and signature).", "quantifier": "all member-reference tables", "why_tests_cant": "Requires rows of other parent kinds before row k, or overloads.", "anchors": ["clr_lite/src/vm/reflection/assembly.rs: Assembly::load", "clr_lite/src/vm/reflection/type.rs: Type::get_method"]}
{"id": "C41", "title": "Assemblies are loaded once, dependencies first", "statement": "Loading an assembly by name loads each (transitively) referenced assembly exactly once, each before the assembly that refers to it; loading a loaded assembly again changes nothing.", "quantifier": "all finite acyclic assembly reference graphs", "why_tests_cant": "All graphs.", "anchors": ["clr_lite/src/vm/mod.rs: ClrLite::load_assembly", "clr_lite/src/vm/mod.rs: ClrLite::get_assembly", "clr_lite/src/vm/reflection/assembly.rs: Assembly::load"]}
{"id": "C42", "title": "Assembly loading terminates", "statement": "Loading an assembly by name terminates for every assembly reference graph.", "quantifier": "all finite reference graphs including cyclic ones", "why_tests_cant": "Non-termination shows only on cyclic references.", "anchors": ["clr_lite/src/vm/mod.rs: ClrLite::load_assembly", "clr_lite/src/vm/reflection/assembly.rs: Assembly::load"]}
{"id": "C43", "title": "Runtime-method binding distinguishes overloads", "statement": "A method implemented by the runtime is bound by a key made of return type, declaring type, name and parameter types; two methods that differ in declaring type, name or parameter type list get different keys, so a native implementation is never bound to another overload.", "quantifier": "all method signatures over type names without the separator characters", "why_tests_cant": "Injectivity over all signatures.", "anchors": ["clr_lite/src/vm/reflection/method.rs: Method::internall_call_name", "clr_lite/src/vm/internal_method.rs"]}
{"id": "C44", "title": "Allocations are disjoint, zeroed and keep earlier data", "statement": "After any sequence of object, array and string allocations the byte ranges handed out are pairwise disjoint and inside the heap, every new object reads as zero, and no earlier object's bytes change.", "quantifier": "all allocation sequences", "why_tests_cant": "Invariant over all allocation sequences.", "anchors": ["clr_lite/src/vm/gc/mod.rs: GcHeap::alloc", "clr_lite/src/vm/gc/mod.rs: GcHeap::alloc_array", "clr_lite/src/vm/gc/mod.rs: GcHeap::alloc_string"]}
{"id": "C45", "title": "References stay valid across allocations", "statement": "A reference to an object remains usable after any later allocations.", "quantifier": "all allocation sequences, all earlier references", "why_tests_cant": "Failure depends on how much has been allocated in total and on the allocator moving the buffer.", "anchors": ["clr_lite/src/vm/gc/mod.rs: GcHeap::ensure_size", "clr_lite/src/vm/gc/object.rs: Object"]}
{"id": "C46", "title": "A field keeps the value stored in it", "statement": "After storing a value in a field of an object, loading that field gives the same value, and every other field of that and of every other object is unchanged.", "quantifier": "all objects, layouts with disjoint fields, all values", "why_tests_cant": "Non-interference over all layouts; breaks for narrow fields next to others.", "anchors": ["clr_lite/src/vm/gc/raw_object.rs: RawObject::set", "clr_lite/src/vm/gc/raw_object.rs: RawObject::get", "clr_lite/src/vm/interpreter/stack_frame.rs: Stfld / Ldfld"]}
{"id": "C47", "title": "Array accesses are bounds-checked and independent", "statement": "Storing at index i of an array makes a later load at i return the stored value and leaves every other index, the length and the element type unchanged; an index outside the array is never written or read.", "quantifier": "all arrays, all 32-bit indices including negative ones", "why_tests_cant": "All lengths and indices.", "anchors": ["clr_lite/src/vm/gc/array.rs: Array", "clr_lite/src/vm/interpreter/stack_frame.rs: Ldelem_I4 / Stelem_I4"]}
{"id": "C48", "title": "Integer arithmetic follows two's complement", "statement": "add, sub, mul, neg, and, or, xor, not, shl and shr on 32-bit operands give the ECMA-335 III.3 result for all operand values in release builds; in debug builds they give the same result or stop, and they stop exactly when the exact result does not fit (or the shift count is out of range).", "quantifier": "all pairs of 32-bit operands", "why_tests_cant": "2^64 operand pairs.", "anchors": ["clr_lite/src/vm/interpreter/value.rs: impl Add/Sub/Mul/Neg/BitAnd/BitOr/BitXor/Not/Shl/Shr for Value", "clr_lite/src/vm/interpreter/stack_frame.rs: StackFrame::execute"]}
{"id": "C49", "title": "Division and remainder truncate toward zero", "statement": "div and rem on 32-bit operands give quotient and remainder truncated toward zero for all operands except division by zero and the one overflowing case, which stop the program.", "quantifier": "all pairs of 32-bit operands", "why_tests_cant": "2^64 operand pairs.", "anchors": ["clr_lite/src/vm/interpreter/value.rs: impl Div/Rem for Value"]}
{"id": "C50", "title": "Unsigned instructions treat operands as unsigned", "statement": "div.un, rem.un, cgt.un, clt.un on 32-bit operands give the unsigned results.", "quantifier": "all pairs of 32-bit operands", "why_tests_cant": "The shipped tests use small non-negative operands only.", "anchors": ["clr_lite/src/vm/interpreter/stack_frame.rs: Div_Un / Rem_Un / Cgt_Un / Clt_Un"]}
{"id": "C51", "title": "Comparisons and conditional branches agree", "statement": "ceq, cgt, clt push 1 or 0 according to signed comparison, and beq, bge, bgt, ble, blt, brtrue, brfalse (short and long) branch exactly when the corresponding comparison holds.", "quantifier": "all pairs of 32-bit operands, all branch offsets", "why_tests_cant": "2^64 operand pairs times offsets.", "anchors": ["clr_lite/src/vm/interpreter/stack_frame.rs: StackFrame::execute", "clr_lite/src/vm/interpreter/value.rs: PartialOrd for Value"]}
{"id": "C52", "title": "Branches go to the next instruction plus the signed displacement", "statement": "A taken branch with displacement d continues at the address of the following instruction plus d, for both short and long forms and both signs; an untaken branch continues at the following instruction.", "quantifier": "all code, all instruction addresses, all displacements", "why_tests_cant": "All displacements and addresses.", "anchors": ["clr_lite/src/vm/interpreter/stack_frame.rs: branch instructions", "clr_lite/src/vm/interpreter/stack_frame.rs: il_get"]}
{"id": "C53", "title": "Instructions are decoded with their ECMA-335 operands", "statement": "Every implemented instruction consumes exactly its opcode bytes and the operand bytes ECMA-335 III defines, and interprets the operand as the defined type.", "quantifier": "all implemented opcodes, all operand bytes, all positions in code", "why_tests_cant": "Long argument forms are not covered by shipped tests even though they are meant to be.", "anchors": ["clr_lite/src/vm/interpreter/stack_frame.rs: get_opcode", "clr_lite/src/vm/interpreter/stack_frame.rs: il_get", "clr_lite/src/vm/interpreter/opcodes.rs"]}
{"id": "C54", "title": "Calls pass arguments in order and return one result", "statement": "When a method is called with arguments pushed left to right, the callee sees argument i as the i-th pushed value (with the receiver as argument 0 for instance methods); after it returns the caller's stack is what it was below the arguments plus the result, if the callee is not void.", "quantifier": "all callees whose execution does not touch operands below its own, all argument counts and values", "why_tests_cant": "All arities and callees.", "anchors": ["clr_lite/src/vm/interpreter/stack_frame.rs: method_call", "clr_lite/src/vm/interpreter/stack_frame.rs: Ret"]}
{"id": "C55", "title": "Frames release exactly the memory they reserve", "statement": "After executing any method, normally or with an error, the interpreter's locals-and-arguments memory has exactly the size it had before the call.", "quantifier": "all programs, all executions of any depth", "why_tests_cant": "All executions, including failing ones.", "anchors": ["clr_lite/src/vm/interpreter/stack_frame.rs: impl Drop for StackFrame", "clr_lite/src/vm/interpreter/stack_frame.rs: stackalloc"]}
{"id": "C56", "title": "Locals and arguments stay readable during nested calls", "statement": "Reading a local variable or argument after a nested call returns what was last stored in it, whatever the call depth.", "quantifier": "all programs, all call depths", "why_tests_cant": "Failure needs enough nesting to make the buffer grow while an outer frame is live.", "anchors": ["clr_lite/src/vm/interpreter/stack_frame.rs: stackalloc", "clr_lite/src/vm/interpreter/stack_frame.rs: StackFrame::new"]}
{"id": "C57", "title": "Locals are independent variables", "statement": "Storing to local (argument) i then loading local j gives the stored value if i = j and the previous value otherwise, for all encodings of the instructions.", "quantifier": "all i, j, values and encodings (short forms, one-byte and two-byte index forms)", "why_tests_cant": "All index pairs and encodings.", "anchors": ["clr_lite/src/vm/interpreter/stack_frame.rs: Ldloc / Stloc / Ldarg / Starg forms"]}
{"id": "C58", "title": "Compiled expressions compute their value", "statement": "Executing the postfix code of any integer expression tree (constants, arguments, locals, unary and binary operators, comparisons) pushes exactly the value of the expression and leaves locals, arguments and the stack below unchanged.", "quantifier": "all expression trees, all argument and local values", "why_tests_cant": "Structural induction over all expressions.", "anchors": ["clr_lite/src/vm/interpreter/stack_frame.rs: StackFrame::execute"]}
{"id": "C59", "title": "Object construction leaves the new object", "statement": "newobj with n constructor arguments removes them, runs the constructor with the new zeroed object as receiver followed by the arguments in order, and pushes the same object.", "quantifier": "all constructors, all argument lists", "why_tests_cant": "All arities and constructors.", "anchors": ["clr_lite/src/vm/interpreter/stack_frame.rs: Newobj"]}
{"id": "C60", "title": "Unsupported instructions are reported, not misexecuted", "statement": "Executing an opcode that is defined but not implemented ends the call with an error naming the instruction and its offset; no state other than the instruction pointer changes.", "quantifier": "all opcodes of the instruction table that have no implementation", "why_tests_cant": "All opcodes; a default arm could silently swallow one.", "anchors": ["clr_lite/src/vm/interpreter/stack_frame.rs: StackFrame::execute", "clr_lite/src/vm/interpreter/opcodes.rs: Opcode"]}
{"id": "C61", "title": "Program output is the concatenation of writes", "statement": "Output only ever grows, and after any execution it is the earlier output followed by the texts written, in execution order.", "quantifier": "all programs, all executions", "why_tests_cant": "All executions.", "anchors": ["clr_lite/src/vm/internal_method/System_Console.rs", "clr_lite/src/vm/mod.rs: ClrLite::output"]}
{"id": "C62", "title": "Only static methods can be run from the host", "statement": "Asking the host interface to run a non-static method returns an error and changes nothing.", "quantifier": "all methods, all argument lists, all runtime states", "why_tests_cant": "All states.", "anchors": ["clr_lite/src/vm/mod.rs: ClrLite::execute"]}
{"id": "C63", "title": "Uninitialised integer locals read as zero of their type", "statement": "Reading a local variable declared as int that was never assigned gives the 32-bit integer zero.", "quantifier": "all methods with int locals", "why_tests_cant": "C# compilers assign before use, so compiled tests never observe it.", "anchors": ["clr_lite/src/vm/interpreter/stack_frame.rs: StackFrame::new", "clr_lite/src/vm/interpreter/stack_frame.rs: stackalloc"]}
{"id": "C64", "title": "A callee cannot consume its caller's operands", "statement": "No method can pop values its caller left on the evaluation stack.", "quantifier": "all callee code", "why_tests_cant": "Compilers emit balanced code; only hand-written IL shows the problem.", "anchors": ["clr_lite/src/vm/interpreter/stack_frame.rs: pop / try_pop", "clr_lite/src/vm/interpreter/mod.rs: Interpreter"]}
{"id": "C65", "title": "Operands are never fetched beyond the method's code", "statement": "Executing any code bytes never reads instruction operands outside the code.", "quantifier": "all code byte strings", "why_tests_cant": "Truncated operands do not occur in compiled code.", "anchors": ["clr_lite/src/vm/interpreter/stack_frame.rs: il_get"]}
{"id": "C66", "title": "A failed assembly load leaves the registry unchanged", "statement": "If loading an assembly fails, type lookups give the same answers as before the attempt.", "quantifier": "all assemblies that fail to load", "why_tests_cant": "Needs a failing assembly and a later lookup.", "anchors": ["clr_lite/src/vm/reflection/assembly.rs: Assembly::load", "clr_lite/src/vm/mod.rs: ClrLite::load_assembly_from_data"]}
{"id": "C67", "title": "Table stream decoding never panics", "statement": "Reading a metadata table stream from an arbitrary byte string returns tables or a format error; it never panics or reads outside the bytes, whatever the announced row counts are.", "quantifier": "all byte strings", "why_tests_cant": "Row counts, presence masks and truncation points combine without limit.", "anchors": ["clr_lite/src/metadata/tables/mod.rs: TableReader::read, TableReader::read_tables", "clr_lite/src/metadata/tables/*.rs: read_row"]}
{"id": "C68", "title": "Types in signatures resolve to the types they denote", "statement": "Whenever an element type of a signature (built-in, class, value type, or array of these) is resolved, the result is the registered type with exactly the full name the element type denotes, and resolving it again gives the same type without registering anything. It is resolved whenever the innermost element's name is registered.", "quantifier": "all registries reached by any sequence of operations, all element types, any array nesting", "why_tests_cant": "Array nesting and registry history are unbounded; tests look at a few types of the library.", "anchors": ["clr_lite/src/vm/reflection/type.rs: Type::get_type_for_element_type", "clr_lite/src/vm/reflection/type.rs: Type::get_or_create_array_type", "clr_lite/src/vm/mod.rs: ClrLite::get_type"]}
{"id": "C69", "title": "The object returned to the host has its contents", "statement": "When a program run by the host returns an object, array or string, the result carries the bytes of that object as they were when the program returned.", "quantifier": "all programs that return a reference, all runtime states", "why_tests_cant": "Reading freed memory usually still finds the old bytes in a small test process.", "anchors": ["clr_lite/src/vm/mod.rs: ClrLite::execute, RunResult::Object", "clr_lite/src/vm/gc/object.rs: Object::raw_data"]}
{"id": "C70", "title": "64-bit integer arithmetic follows the standard", "statement": "add, sub, mul, neg, and, or, xor, not, div and rem on 64-bit operands, and shl and shr of a 64-bit operand by a 32-bit count, give the ECMA-335 III.3 result; in debug builds they give the same result or stop, exactly when the exact result does not fit.", "quantifier": "all pairs of 64-bit operands, all counts", "why_tests_cant": "The operand space has 2^128 pairs; the tests only use small values.", "anchors": ["clr_lite/src/vm/interpreter/value.rs: impl Add, Sub, Mul, Div, Rem, Neg, BitAnd, BitOr, BitXor, Shl, Shr, Not", "clr_lite/src/vm/interpreter/stack_frame.rs: StackFrame::execute"]}
{"id": "C71", "title": "Calls in a loop run in bounded memory", "statement": "A call that returns leaves the memory for locals and arguments as large as it was before the call, so a loop that makes calls does not use more and more of it.", "quantifier": "all methods, all arguments, all runtime states", "why_tests_cant": "The loss is a few bytes per call and is given back when the calling method returns; only long loops show it.", "anchors": ["clr_lite/src/vm/interpreter/stack_frame.rs: method_call, stackalloc, Drop for StackFrame"]}
{"id": "C72", "title": "Compiled programs with loops and conditionals compute their meaning", "statement": "A static method compiled from structured integer code (assignments to locals and arguments, if-else, while, and a returned expression) gives the host the value the program means; it stops exactly where the program's own arithmetic stops; and it runs forever if the program does.", "quantifier": "all structured programs, all argument values, all choices of encodings, every number of iterations", "why_tests_cant": "Programs, inputs and iteration counts are unbounded, and non-termination cannot be observed by a test.", "anchors": ["clr_lite/src/vm/interpreter/stack_frame.rs: StackFrame::execute", "clr_lite/src/vm/mod.rs: ClrLite::execute"]}
{"id": "C73", "title": "Well-typed programs do not go wrong", "statement": "A program whose methods are well typed in the sense of ECMA-335 III.1.8 (integers, floats, strings, arrays of int, classes with numeric fields, calls, constructors, branches), run by the host on numbers of the right types, ends with a result of its declared type, goes on for ever, or is stopped by an instruction that may stop a program (division, overflow in debug builds, array length or index). It never stops for any other reason, never reports an internal error and never touches memory it does not own.", "quantifier": "all well-typed programs, all argument values, every number of steps, both build modes", "why_tests_cant": "Programs and executions are unbounded; memory errors often go unnoticed in a test.", "anchors": ["clr_lite/src/vm/interpreter/stack_frame.rs: StackFrame::execute and all instruction functions", "clr_lite/src/vm/interpreter/value.rs", "clr_lite/src/vm/gc/mod.rs", "clr_lite/src/vm/mod.rs: ClrLite::execute"]}
{"id": "C74", "title": "The host's view of an array checks indices and types", "statement": "Storing a value through the host's array handle reports an index outside the array, reports a value whose type is not the element type, changes nothing in these cases, and otherwise replaces exactly that element and no other memory. Viewing the elements gives exactly the elements, in order, for the element type, and is refused for any other type. New arrays have all elements zero.", "quantifier": "all arrays, all element types, all indices, all values, all heap contents", "why_tests_cant": "Lengths, indices and neighbouring heap contents are unbounded; a write outside the array usually goes unnoticed in a test.", "anchors": ["clr_lite/src/vm/gc/array.rs: Array::as_slice, Array::as_mut_slice, Array::set, ArrayError", "clr_lite/src/vm/gc/mod.rs: GcHeap::alloc_array"]}
{"id": "C75", "title": "Objects look to the host like what was asked for", "statement": "After any sequence of allocations, every object handle reports the type that was asked for (for arrays the array type, for strings System.String), exactly the arrays convert to arrays and exactly the strings to strings, a string has the text it was made from, and the raw data are exactly the object's own bytes.", "quantifier": "all sequences of allocations, all types, all array lengths, all strings", "why_tests_cant": "The sequences are unbounded and handles into moved memory often still read the old bytes.", "anchors": ["clr_lite/src/vm/gc/object.rs: Object::type_of, Object::as_array, Object::as_string, Object::raw_data", "clr_lite/src/vm/gc/string.rs: ManagedString::data", "clr_lite/src/vm/gc/mod.rs: GcHeap::alloc, alloc_array, alloc_string"]}
{"id": "C76", "title": "The table of built-in types is right once the runtime has started", "statement": "After the runtime has started successfully, and whatever is loaded or run afterwards, each Rust number type, and object and string, stands for the registered type of the right full name, and a type is found again by the number stored in its objects.", "quantifier": "all core library images, all later loads and runs, up to 2^32 types", "why_tests_cant": "Library images and later programs are unbounded.", "anchors": ["clr_lite/src/vm/mod.rs: ClrLite::new_runtime", "clr_lite/src/vm/reflection/type.rs: HasManagedType"]}
{"id": "C77", "title": "Assemblies are found in the load directories, in order", "statement": "Loading an assembly by name takes the file name.dll, or else name.exe, of the first load directory that has one of them, never a file outside the load directories, and fails exactly if no load directory has one.", "quantifier": "all names, all lists of load directories, all disk contents", "why_tests_cant": "The set of names and disk contents is unbounded; tests use one directory and plain names.", "anchors": ["clr_lite/src/vm/mod.rs: ClrLite::new, ClrLite::resolve_assembly_name, ClrLite::load_assembly"]}
{"id": "C78", "title": "A loaded type has the kind, base class and interfaces its declaration gives", "statement": "After a successful load, every type of the assembly is abstract exactly if declared so, has the declared base class, is an interface, a value type, an enumeration or a class as ECMA-335 defines it from its flags and base class, and implements exactly the interfaces listed for it, in order.", "quantifier": "all assembly images that load, all registries they are loaded into", "why_tests_cant": "The images are unbounded, and names may coincide in ways no test tries.", "anchors": ["clr_lite/src/vm/reflection/type.rs: Type::resolve_base, Type::resolve_kind, Type::kind, Type::base, Type::interfaces", "clr_lite/src/vm/reflection/assembly.rs: Assembly::load"]}
{"id": "C79", "title": "Exactly the value types are stored inline", "statement": "The runtime treats a type as a value type (stored inline, copied) exactly if it extends System.ValueType or System.Enum directly and is not System.Enum itself; all other types are reference types.", "quantifier": "all registries with distinct names whose value types are sealed, all types", "why_tests_cant": "Class hierarchies are unbounded.", "anchors": ["clr_lite/src/vm/reflection/type.rs: Type::is_reference_type, Type::size"]}
{"id": "C80", "title": "Members of a type include all inherited ones, each once", "statement": "The list of all fields of a type has the fields of the type and of its base classes, nearest first, each once. The list of all methods has exactly the methods of the type, of its base classes and of their interfaces, each once.", "quantifier": "all registries, all types", "why_tests_cant": "Class hierarchies are unbounded.", "anchors": ["clr_lite/src/vm/reflection/type.rs: Type::all_fields, Type::all_methods"]}
{"id": "C81", "title": "Base class chains end", "statement": "In any history of loads that all return, with a result or an error, the chain of base classes of every registered type ends; so asking whether an object is an instance of a type always answers.", "quantifier": "all sequences of loads of arbitrary files, all types", "why_tests_cant": "Class hierarchies are unbounded and files may be hostile; a missed circle shows as a hang, which no finite run can observe.", "anchors": ["clr_lite/src/vm/reflection/type.rs: Type::size", "clr_lite/src/vm/mod.rs: ClrLite::load_assembly", "clr_lite/src/vm/mod.rs: ClrLite::resolve_type_def_or_ref"]}
{"id": "C82", "title": "Printed tokens and addresses can be read back", "statement": "A metadata token prints as 0x and eight hexadecimal digits that write its value; the first two are the table, the other six the row; different tokens print differently. An address prints as 0x and digits without leading zeros that write it.", "quantifier": "all 32-bit tokens and addresses", "why_tests_cant": "2^32 tokens; reading back and injectivity are laws about all of them.", "anchors": ["clr_lite/src/metadata/metadata_token.rs: Display for MetadataToken, Debug for MetadataToken", "clr_lite/src/pe.rs: Display for Rva, PeError::to_string"]}
{"id": "C83", "title": "Printed members show their signature and tell methods apart", "statement": "Printing a method, field or parameter of a loaded type always succeeds. A method prints as result type, name and comma-separated parameter types; the text determines these, so different methods of a type print differently.", "quantifier": "all reachable registries, all members of all types", "why_tests_cant": "Names and parameter lists are unbounded; telling apart is about all pairs of methods.", "anchors": ["clr_lite/src/vm/reflection/method.rs: Display for Method", "clr_lite/src/vm/reflection/field.rs: Display for Field", "clr_lite/src/vm/reflection/parameter.rs: Display for Parameter"]}
{"id": "C84", "title": "Integer programs with calls compute what the standard says", "statement": "A program of methods over 32-bit integers that use constants, arguments, locals, arithmetic, comparisons, branches and calls of each other, also recursive ones, gives the host the result, the failure or the non-termination that the standard's abstract machine has, in which every activation has its own stack, locals and arguments.", "quantifier": "all such programs, all arguments, all numbers of instructions run", "why_tests_cant": "Programs, recursion depths and arguments are unbounded.", "anchors": ["clr_lite/src/vm/interpreter/stack_frame.rs: StackFrame::execute, StackFrame::method_call", "clr_lite/src/vm/interpreter/mod.rs: Interpreter::execute", "clr_lite/src/vm/mod.rs: ClrLite::execute"]}
{"id": "C85", "title": "Valid assemblies load", "statement": "An assembly whose metadata is valid (every row names things that exist, signatures and bodies are encoded as ECMA-335 says, only supported element types and native methods are used, no type contains itself) is loaded without an error or panic once the assemblies it refers to are loaded.", "quantifier": "all assembly images, all registries they are loaded into", "why_tests_cant": "Valid images are unbounded, and so are the combinations of types, arrays, members and references in them.", "anchors": ["clr_lite/src/vm/reflection/assembly.rs: Assembly::load", "clr_lite/src/vm/mod.rs: ClrLite::load_assembly", "clr_lite/src/vm/reflection/type.rs: Type::load, Type::resolve"]}
{"id": "C86", "title": "Comparisons and conditional branches work for long and floating-point operands", "statement": "ceq, cgt, clt and the conditional branches order two operands of the same type: integers as signed numbers, floating-point numbers as the hardware does, NaN being unordered; the .un comparisons of floating-point numbers hold of unordered ones; brtrue and brfalse test a 64-bit integer or a reference for zero or null.", "quantifier": "all operands of the types int32, int64, float32, float64 and references, all instructions, all stacks", "why_tests_cant": "2^128 pairs of operands per instruction, NaN among them.", "anchors": ["clr_lite/src/vm/interpreter/value.rs: Value::is_null_or_zero, PartialOrd for Value, PartialEq for Value", "clr_lite/src/vm/interpreter/stack_frame.rs: StackFrame::execute"]}
{"id": "C87", "title": "Floating-point arithmetic is the hardware's, in operand order", "statement": "add, sub, mul, div, rem and neg on floating-point operands replace them by the result of the hardware operation, first operand pushed first, leave the rest of the stack alone and never fail; this also for operands of different width.", "quantifier": "all floating-point operands and stacks, any hardware", "why_tests_cant": "2^128 pairs of operands; swapped operands and the wrong width go unnoticed on symmetric samples.", "anchors": ["clr_lite/src/vm/interpreter/value.rs: Add for Value, Sub for Value, Mul for Value, Div for Value, Rem for Value, Neg for Value"]}
{"id": "C88", "title": "Integer programs give their result from the assembly file on", "statement": "Loading a valid assembly file and executing one of its static methods over 32-bit integers, found by its metadata token, gives the host what the standard's abstract machine computes for the code in the file: rows, signatures, method bodies, locals, calls by token and recursion are all taken from the file as ECMA-335 says.", "quantifier": "all valid assembly files, all their integer methods, all arguments, all numbers of instructions run", "why_tests_cant": "Files, programs, recursion depths and arguments are unbounded, and the claim spans reading, loading and running.", "anchors": ["clr_lite/src/vm/mod.rs: ClrLite::load_assembly, ClrLite::execute", "clr_lite/src/vm/reflection/assembly.rs: Assembly::load, Assembly::resolve_method", "clr_lite/src/vm/reflection/method.rs: Method::load", "clr_lite/src/vm/interpreter/stack_frame.rs: StackFrame::execute, StackFrame::method_call"]}
{"id": "C89", "title": "Programs with objects, arrays, strings and output do what the standard says", "statement": "A program of methods that, besides arithmetic on integers and floating-point numbers of 32 and 64 bits, branches and calls, creates objects with constructors, reads and writes their numeric fields, creates and indexes arrays of integers, loads string literals, compares references and writes strings to the console gives the host the result or failure that the standard's abstract machine has, and writes the same text, in the same order, up to that point.", "quantifier": "all such programs, all arguments, all numbers of instructions run", "why_tests_cant": "Programs, object graphs, aliasing of references, recursion depths and arguments are unbounded.", "anchors": ["clr_lite/src/vm/interpreter/stack_frame.rs: StackFrame::execute, StackFrame::method_call", "clr_lite/src/vm/gc/mod.rs: GcHeap", "clr_lite/src/vm/interpreter/mod.rs: Interpreter::execute", "clr_lite/src/vm/mod.rs: ClrLite::execute"]}
{"id": "C90", "title": "Programs with objects and output do what the standard says from the assembly file on", "statement": "Loading a valid assembly file writes nothing, and executing one of its static methods, found by its metadata token, writes the text and gives the host the result or failure that the standard's abstract machine has for the code in the file: classes, inherited fields and their places, constructors, string literals, array types, calls of other methods and of Console.Write are all taken from the rows and heaps of the file as ECMA-335 says.", "quantifier": "all valid assembly files, all their methods over numbers, objects, integer arrays and strings, all arguments, all numbers of instructions run", "why_tests_cant": "Files, class hierarchies, programs and arguments are unbounded, and the claim spans reading, loading, layout and running.", "anchors": ["clr_lite/src/vm/mod.rs: ClrLite::load_assembly, ClrLite::execute", "clr_lite/src/vm/reflection/assembly.rs: Assembly::load, Assembly::resolve_method, Assembly::resolve_field, Assembly::resolve_type", "clr_lite/src/vm/reflection/type.rs: Type::load, Type::resolve, Type::size", "clr_lite/src/vm/interpreter/stack_frame.rs: StackFrame::execute, StackFrame::method_call", "clr_lite/src/vm/gc/mod.rs: GcHeap"]}
{"id": "C91", "title": "An assembly file is read back as it was written", "statement": "Given any assembly file written according to ECMA-335 and the PE format, with streams in any order, any padding and any legal header contents, loading its metadata succeeds, and then every table row, name, blob, string literal, GUID, resource, method body and header field that is read is the one that was written.", "quantifier": "all files written from all contents of the tables and heaps", "why_tests_cant": "Files and their contents are unbounded, and the claim joins all levels of the format: sections, directories, streams, heaps, tables, bodies.", "anchors": ["clr_lite/src/metadata/mod.rs: Metadata::read", "clr_lite/src/pe.rs: parse_pe, PeInfo::resolve_rva", "clr_lite/src/metadata/tables/mod.rs: TableReader::read", "clr_lite/src/metadata/strings_heap.rs, blob_heap.rs, guid_heap.rs"]}
{"id": "C92", "title": "The command-line program executes the entry point of the given file", "statement": "Run with the path of a valid assembly file, the program starts the runtime, loads the file and executes the method that the entry point of the file names; what it writes to standard output is the text that the standard's abstract machine writes, and the value it reports is the result. Without an argument, or with a file that cannot be loaded or has no entry point, it ends with a panic and writes nothing to standard output.", "quantifier": "all valid assembly files, all contents of the disk, all command lines, all numbers of instructions run", "why_tests_cant": "Files, programs and disks are unbounded, and the claim spans the whole program from its command line to its output.", "anchors": ["test_program/src/main.rs: main", "clr_lite/src/vm/mod.rs: ClrLite::new_runtime, ClrLite::load_assembly_from_path, ClrLite::execute", "clr_lite/src/vm/reflection/assembly.rs: Assembly::load, Assembly::entry_point"]}
{"id": "C93", "title": "No accepted type is inside itself", "statement": "After any sequence of loads and array type lookups that all return, no registered type is a part of itself, through base classes and fields of value types, and asking for the size of a registered type always gives an answer.", "quantifier": "all sequences of loads of any files, all registered types", "why_tests_cant": "Files and the type graphs in them are unbounded; the loader sizes types that are only half loaded, so each order of declarations is a case of its own.", "anchors": ["clr_lite/src/vm/reflection/type.rs: Type::size, Type::resolve, Type::is_reference_type", "clr_lite/src/vm/reflection/field.rs: Field::load", "clr_lite/src/vm/reflection/assembly.rs: Assembly::load"]}
{"id": "C94", "title": "Builds with and without overflow checks agree unless the checks stop the program", "statement": "Any sequence of calls that a host makes (starting the runtime, loading assemblies, asking for array types and sizes, executing methods) in which nothing panics in a build with overflow checks gives, in a build without, the same answers, the same registered types and the same output; the same holds of reading metadata and of the command-line program.", "quantifier": "all sequences of calls, all files, all methods, all arguments", "why_tests_cant": "Test suites run in one of the builds; files, programs and sequences of calls are unbounded, and every arithmetic operation in the code is a place where the builds could part.", "anchors": ["clr_lite/src/vm/mod.rs: ClrLite::new_runtime, ClrLite::load_assembly, ClrLite::execute", "clr_lite/src/metadata/mod.rs: Metadata::read", "clr_lite/src/pe.rs: parse_pe", "clr_lite/src/vm/interpreter/value.rs: Add for Value", "test_program/src/main.rs: main"]}
{"id": "C95", "title": "Loading and running never change what was loaded before", "statement": "Whatever is loaded afterwards, with or without success, and whatever is executed afterwards, all types and assemblies that were registered are still there, in the same places and unchanged in every detail (names, members, offsets, base types, method bodies); sizes, kinds and subtype questions about them are answered as before, and names that were known stay known and mean the same types or types added since.", "quantifier": "all registries, all sequences of loads and executions, all types and assemblies", "why_tests_cant": "Loading updates type records in place while it runs; that it never touches an earlier one is about all files and all points at which a load can fail.", "anchors": ["clr_lite/src/vm/mod.rs: ClrLite::load_assembly, ClrLite::execute, ClrLite::get_type", "clr_lite/src/vm/reflection/assembly.rs: Assembly::load", "clr_lite/src/vm/reflection/type.rs: Type::load, Type::resolve, Type::get_array_type, Type::size"]}
{"id": "C96", "title": "A loaded program does the same whenever it is executed", "statement": "A static method of a loaded assembly writes and returns what the standard's abstract machine says of the code in the file, no matter what has been loaded, has failed to load or has been executed since the file was loaded, even if later assemblies define types with the same names; its output follows what has been written by then.", "quantifier": "all valid assembly files, all their methods over numbers, objects, integer arrays and strings, all later loads and executions, all arguments, all numbers of instructions run", "why_tests_cant": "The histories between loading and executing are unbounded; hidden state shared by executions shows only in some of them.", "anchors": ["clr_lite/src/vm/mod.rs: ClrLite::load_assembly, ClrLite::execute", "clr_lite/src/vm/reflection/assembly.rs: Assembly::load, Assembly::resolve_method, Assembly::resolve_field, Assembly::resolve_type", "clr_lite/src/vm/reflection/type.rs: Type::size, Type::get_array_type", "clr_lite/src/vm/interpreter/stack_frame.rs: StackFrame::execute, StackFrame::method_call", "clr_lite/src/vm/gc/mod.rs: GcHeap"]}
{"id": "C97", "title": "No call fails because of how internal state is borrowed", "statement": "Whatever views a host holds (lists of types of an assembly, of fields, methods, interfaces, parameters), no call of the public API ends in the panic of a refused borrow of internal state, for any files and programs: calls that only ask never do; loads, executions and array type requests do not as long as the host holds no view of the runtime's lists of all types or all assemblies.", "quantifier": "all sets of views a host can hold, all calls, all files, all programs, all depths of recursion", "why_tests_cant": "Borrow checks happen at run time and fail only for particular nestings of calls on particular objects; the nestings are unbounded and depend on the files and on what the host holds.", "anchors": ["clr_lite/src/vm/mod.rs: ClrLite, Types, Assemblies", "clr_lite/src/vm/reflection/type.rs: Type::resolve_fields, Type::resolve_methods, Type::size, Type::array_of", "clr_lite/src/vm/reflection/assembly.rs: Assembly::load", "clr_lite/src/vm/reflection/method.rs: Method::load", "clr_lite/src/vm/interpreter/mod.rs: Interpreter::gc", "clr_lite/src/vm/gc/array.rs: Array::set", "clr_lite/src/metadata/strings_heap.rs: StringsHeap::get"]}
{"id": "C98", "title": "Reflection links lead somewhere, and back", "statement": "At any moment, following any link of the reflection API ends at something that is registered: base classes, interfaces, declaring types, types of fields, results, parameters, local variables and caught exceptions. A loaded assembly's types answer that assembly when asked, for ever; its methods and fields are exactly those of its types; its entry point is one of its methods; and a type that answers an assembly is one of its types or an array type of one.", "quantifier": "all histories of loads (successful or not) and array type requests, all registered types and loaded assemblies", "why_tests_cant": "The links are weak references, which fail only at run time and only in particular histories; files and histories are unbounded, and loads can fail half way.", "anchors": ["clr_lite/src/vm/reflection/type.rs: Type::assembly, Type::base, Type::fields, Type::methods, Type::interfaces, Type::array_of", "clr_lite/src/vm/reflection/field.rs: Field::declaring_type, Field::field_type", "clr_lite/src/vm/reflection/method.rs: Method::declaring_type, Method::return_type, Method::parameters", "clr_lite/src/vm/reflection/assembly.rs: Assembly::types, Assembly::entry_point"]}
{"id": "C99", "title": "Operators on values are exact for all eight integer types", "statement": "For each of the eight integer types, +, -, *, unary -, the comparisons, == and the zero test on values give the result of integer arithmetic; a result that the type lacks panics in a build with overflow checks and wraps around in a build without. / and % truncate toward zero and panic for a zero divisor or a quotient that the type lacks, in every build. &, |, ^ and ! work bit by bit on the two's complement. << and >> multiply and divide (rounding down) by powers of two; a count outside the width panics with overflow checks and is reduced without. Operands of different kinds panic and are not equal; references have no operator but ==; floating-point values have no bitwise operators; unsigned values have no negation.", "quantifier": "for all integer types, all numbers of the type and both kinds of build", "why_tests_cant": "The 64-bit operations alone have 2^128 operand pairs each; tests touch the ends of the ranges of one type at best, and the instructions only reach some of the types.", "anchors": ["clr_lite/src/vm/interpreter/value.rs: Value, impl Add, Sub, Mul, Div, Rem, Neg, BitAnd, BitOr, BitXor, Shl, Shr, Not, PartialOrd, PartialEq, Value::is_null_or_zero"]}
{"id": "C100", "title": "A program compiled and assembled into a file runs as its source says", "statement": "Take any program of mutually recursive procedures over 32-bit integers, with assignments, calls, conditionals and loops, whose meaning is given on the source alone. Compiled and assembled into the bytes of an assembly file, it loads next to a core library; executing a procedure found by its metadata token returns the value that the source gives, panics exactly where the source stops (overflow with checks, division by zero), and never returns when the source never ends.", "quantifier": "all programs within the limits of the assembler, all procedures, all arguments, all registries that provide the core types, both kinds of build", "why_tests_cant": "Programs, recursion depths, iteration counts and arguments are unbounded, non-termination is not testable, and the claim joins the file format, loading, linking and execution.", "anchors": ["clr_lite/src/vm/mod.rs: ClrLite::load_assembly, ClrLite::execute", "clr_lite/src/metadata/mod.rs: Metadata::read", "clr_lite/src/pe.rs: parse_pe", "clr_lite/src/vm/reflection/assembly.rs: Assembly::load, Assembly::resolve_method", "clr_lite/src/vm/reflection/method.rs: Method::load", "clr_lite/src/vm/interpreter/stack_frame.rs: StackFrame::execute, StackFrame::method_call"]}
{"id": "C101", "title": "Memory is accessed only at addresses aligned for the type accessed", "statement": "Whatever addresses the system gives the buffers that hold code, objects, variables and files, executing a method and reading the rows of an assembly file access numbers only at addresses that are multiples of the size of the number, as Rust requires; an execution without such an access has the result that the other properties describe.", "quantifier": "all placements of the buffers, all programs, all executions, all strings, arrays and fields, all files", "why_tests_cant": "The addresses are chosen by the system and differ from run to run; most processors hide the violation, so a test passes although the compiler may assume it does not happen.", "anchors": ["clr_lite/src/vm/interpreter/stack_frame.rs: StackFrame::il_get, StackFrame::stackalloc", "clr_lite/src/vm/gc/string.rs: ManagedString::data, ManagedString::data_mut", "clr_lite/src/vm/gc/array.rs: Array::as_slice, Array::as_mut_slice", "clr_lite/src/vm/gc/raw_object.rs", "binary_reader/src/lib.rs: BinaryReader::peek"]}
{"id": "C102", "title": "Methods provided by the runtime do what the library documents", "statement": "Called with its arguments on the evaluation stack, in any state, a method that the runtime implements natively replaces them by its result: Console.Write appends the text of the string, String.Length gives the number of UTF-16 units, indexing a string gives the unit at the index. A method without code (abstract or of an interface) panics when called or executed, and changes neither output nor heap nor registry.", "quantifier": "all strings, indices, states, evaluation stacks and callers", "why_tests_cant": "Strings, indices and states are unbounded, and the calls can come from anywhere in any program.", "anchors": ["clr_lite/src/vm/internal_method/System_Console.rs: console_write", "clr_lite/src/vm/internal_method/System_String.rs: get_Item, get_Length", "clr_lite/src/vm/interpreter/mod.rs: Interpreter::execute", "clr_lite/src/vm/interpreter/stack_frame.rs: StackFrame::method_call"]}
{"id": "C103", "title": "What a runtime is made of lives as long as someone uses it, and no longer", "statement": "Assemblies, types, methods, fields and parameters are freed when, and only when, the host can no longer get at them through the handles it holds. While it holds the runtime, everything that was loaded is alive and all links answer. Dropping a handle never touches something already freed. When all handles have been dropped nothing is left.", "quantifier": "all histories of loading, all histories of taking and dropping handles, in any order", "why_tests_cant": "Leaks and premature frees depend on the shape of the reference graph, which the files determine, and on the order of drops; a leak has no effect that a unit test observes.", "anchors": ["clr_lite/src/vm/mod.rs: ClrLite, ClrInternal, PrimitiveTypes", "clr_lite/src/vm/reflection/assembly.rs: AssemblyInternal", "clr_lite/src/vm/reflection/type.rs: TypeInternal, Type::assembly, Type::size, Type::is_reference_type, Type::array_of", "clr_lite/src/vm/reflection/method.rs: MethodInternal", "clr_lite/src/vm/reflection/method_body.rs: MethodBody", "clr_lite/src/vm/reflection/field.rs: FieldInternal", "clr_lite/src/vm/reflection/parameter.rs: ParameterInternal"]}
{"id": "C104", "title": "Asking about a type takes work in proportion to what was loaded", "statement": "Whether a type is an instance of another, which fields it has with its base classes, and how large its instances are, is answered after a number of steps that is at most about the square of the number of types, fields and interface entries that were loaded, however these are connected.", "quantifier": "all files, all histories of loading that returned, all types", "why_tests_cant": "The work depends on the shape of the type graph; a test sees the small graphs of real libraries, where an exponential is as fast as a square.", "anchors": ["clr_lite/src/vm/reflection/type.rs: Type::instance_of, Type::is_reference_type, Type::size, Type::all_fields, Type::resolve_fields"]}
{"id": "C105", "title": "Reading a file requests memory in proportion to the file", "statement": "Whatever counts a file contains, reading its tables and decoding its signatures requests memory in advance for no more rows, parameters, generic arguments and array dimensions than there are bytes in what is read, and so does loading a method body for local variables and exception clauses; loading a whole file requests memory for a number of elements that is bounded by the size of the file, however often its parts are shared; in particular a damaged or malicious file of a few bytes is rejected without requesting gigabytes.", "quantifier": "all byte sequences, all counts, all nestings of types", "why_tests_cant": "The counts are 32-bit and 29-bit numbers in the file; a test allocates lazily and passes although the request is for gigabytes, or aborts depending on the machine.", "anchors": ["clr_lite/src/metadata/tables/mod.rs: TableReader::read_table", "clr_lite/src/metadata/blob/method_signature.rs: BlobReader::read_method_signature", "clr_lite/src/metadata/blob/property_signature.rs: BlobReader::read_property_signature", "clr_lite/src/metadata/blob/method_spec.rs: BlobReader::read_method_spec", "clr_lite/src/metadata/blob/array_shape.rs: BlobReader::read_array_shape", "clr_lite/src/metadata/blob/element_type.rs: BlobReader::read_element_type"]}
{"id": "C106", "title": "Loading more does not change what methods do", "statement": "A method of a loaded library, executed after further libraries have been loaded (with or without success) and other methods have run, ends as it would have ended before, with the same result or the same error, and prints the same text, provided that the names in use still mean the same types; executed a second time, it does the same again.", "quantifier": "all programs, all histories of loading and running, all executions whether they end or not, both build modes", "why_tests_cant": "A test executes a method in one or two registries; the claim is about every program in every larger registry, including what instructions look up by name while they run.", "anchors": ["clr_lite/src/vm/mod.rs: ClrLite::execute, ClrLite::load_assembly, ClrInternal::get_type", "clr_lite/src/vm/interpreter/stack_frame.rs: StackFrame::execute, StackFrame::method_call", "clr_lite/src/vm/gc/: GcHeap::alloc, GcHeap::alloc_array, GcHeap::alloc_string", "clr_lite/src/vm/reflection/type.rs: Type::size, Type::array_of"]}
{"id": "C107", "title": "The host's arguments belong to the host", "statement": "Executing a method does not change the values in the host's argument array, whatever the method and the methods it calls do. Passing more arguments than the method uses changes nothing in what happens. Passing fewer arguments than the method declares is reported as an error.", "quantifier": "all methods, all arguments, all executions whether they end or not, both build modes", "why_tests_cant": "A test passes matching arguments to a method that does not assign its parameters; calls in between, recursion and surplus arguments have unbounded variety.", "anchors": ["clr_lite/src/vm/mod.rs: ClrLite::execute", "clr_lite/src/vm/interpreter/stack_frame.rs: StackFrame::execute, StackFrame::method_call, StackFrame::stackalloc", "clr_lite/src/vm/interpreter/mod.rs: Interpreter::execute"]}
{"id": "C108", "title": "Only the contents of a file matter", "statement": "Loading a library, or running a program, does the same for two executable files that differ only in what surrounds the contents: the DOS program, where the headers are, machine type, time stamp, checksum and other optional fields, the names of sections, padding, and how far into the file the sections start. If it succeeds, it also does the same when bytes are added at the end of the files.", "quantifier": "all files with arbitrary contents, well-formed or not, all sets of library files, all states of the runtime, all outcomes, both build modes", "why_tests_cant": "The bytes that must not matter have unboundedly many values and lengths; a test compares a few pairs of files.", "anchors": ["clr_lite/src/pe.rs: PeInfo::parse_pe, PeInfo::resolve_rva", "clr_lite/src/metadata/mod.rs: Metadata::read", "clr_lite/src/vm/reflection/method_body.rs: MethodBody::load", "clr_lite/src/vm/mod.rs: ClrLite::load_assembly_from_data", "test_program/src/main.rs: main"]}
{"id": "C109", "title": "Types are laid out as declared", "statement": "When a library declares how the fields of a type are laid out, loading it respects the declaration: fields of a sequential type lie in the order of declaration, spaced by the packing size, fields with explicit offsets lie at these offsets, and instances of a type with a declared size have at least this size.", "quantifier": "all libraries, all types with a declared layout, all states of the runtime, both build modes", "why_tests_cant": "The layout depends on every field type and on the base class; a test has one class at a time and seldom looks at offsets.", "anchors": ["clr_lite/src/vm/reflection/type.rs: Type::resolve_fields, Type::size", "clr_lite/src/vm/reflection/field.rs: Field::load, Field::offset", "clr_lite/src/metadata/tables/class_layout.rs: ClassLayout", "clr_lite/src/metadata/tables/field_layout.rs: FieldLayout"]}
{"id": "C110", "title": "The memory of objects that are no longer used is used again", "statement": "The memory a program needs depends on the objects it has in use at the same time, not on how many it has made: a program that makes an object, drops it and makes the next runs in bounded memory, however long it runs. Methods that create no objects, with all that they call, use no memory for objects at all.", "quantifier": "all methods, all programs, all arguments, all lengths of execution whether they end or not", "why_tests_cant": "A test runs for a moment and allocates little; that memory grows without bound is visible only over executions of any length.", "anchors": ["clr_lite/src/vm/gc/: GcHeap::alloc, GcHeap::alloc_array, GcHeap::alloc_string, GcHeap::ensure_size, GcHeap::collect", "clr_lite/src/vm/interpreter/stack_frame.rs: StackFrame::execute, StackFrame::method_call"]}
{"id": "C111", "title": "Recursion is no deeper than the registry", "statement": "A question about a type (its size, whether it is an instance of another, its fields, its methods) either never ends or makes at most one nested call for each registered type and one more, for sizes two for each. A load that succeeds nests no more loads than the assemblies it adds. The same limit for sizes holds in every load and every execution that ends, so that a load that exceeds it never ends.", "quantifier": "all registries, all types, all files and reference graphs, all programs", "why_tests_cant": "Depth of recursion decides whether the native stack overflows; hierarchies, files and programs are unbounded, and a question that needs one level more is no different to a test from one that never ends.", "anchors": ["clr_lite/src/vm/reflection/type.rs: Type::size, Type::instance_of, Type::all_fields, Type::all_methods", "clr_lite/src/vm/reflection/assembly.rs: Assembly::load", "clr_lite/src/vm/mod.rs: ClrLite::load_assembly, ClrLite::execute_method"]}
{"id": "C112", "title": "Names of sections", "statement": "Asking a section of a parsed image for its name gives the text the file stores there: a text of at most eight bytes, padded with NULs, is given back exactly; whatever is given back is a text that stands in the name field surrounded only by NULs; and asking always returns.", "quantifier": "every section header with any eight name bytes; every well-formed image, section and name; both builds", "why_tests_cant": "There are 2^64 name fields. Tests look at names such as .text; that the call panics exactly on fields that are no UTF-8, and that NULs are removed at both ends, needs the full characterisation.", "anchors": ["clr_lite/src/pe.rs: PeSectionHeader::name, PeInfo::parse_pe"]}
{"id": "C113", "title": "Typed reads", "statement": "Reading a value at one of the types the reader supports gives exactly the value whose representation stands at the position, moves over it, gives nothing when too few bytes are left, and never has undefined behaviour; in particular a constant of a file, of any of these types, is read back from its blob.", "quantifier": "every buffer, position and supported type; every constant value and blob heap; both builds", "why_tests_cant": "A test reads chosen values. That every byte pattern is safe to read at a type is a statement about all patterns, and reading a bool or char from other patterns is undefined behaviour, which a test cannot observe.", "anchors": ["binary_reader/src/lib.rs: BinaryReader::read, BinaryReader::peek, CopyFromBytes", "clr_lite/src/metadata/blob/blob_reader.rs: BlobReader::read", "clr_lite/src/metadata/tables/constant.rs: Constant"]}
{"id": "C114", "title": "Runaway recursion does not exhaust the host's stack", "statement": "The calls of a program take a bounded part of the host's stack: there is a limit to the calls that are active at the same time, and a program that exceeds it gets an error. A program without recursion never has more calls active than there are methods, and one; a method that contains no call instruction takes one, however long it runs; and the active calls always form a chain of call instructions that stand in the code.", "quantifier": "all programs, all methods, all arguments, all lengths of execution whether they end or not, both builds", "why_tests_cant": "A stack overflow aborts the host and depends on the size of its stack; tests run programs of some depth, and cannot tell a deep limit from none.", "anchors": ["clr_lite/src/vm/interpreter/stack_frame.rs: StackFrame::execute, StackFrame::method_call", "clr_lite/src/vm/interpreter/mod.rs: Interpreter::execute", "clr_lite/src/vm/mod.rs: ClrLite::execute"]}
{"id": "C115", "title": "What a program does does not depend on how it is spelled", "statement": "Whether a program ends, its result, and what it leaves of the registry, the host's parameters and the objects are the same for every spelling of its methods: constants, variables and branches may be encoded in their short or long forms, and nop may stand anywhere, branches going to the line or to a nop before it. Any number of methods, including called ones, may be respelled at once.", "quantifier": "all programs, all methods, all arguments, all pairs of spellings with any addresses, whether the execution ends or not, both builds", "why_tests_cant": "A test compiles a method in one way. Compilers, and debug and optimised builds, spell the same program differently, and the spellings and the programs are infinitely many.", "anchors": ["clr_lite/src/vm/interpreter/stack_frame.rs: StackFrame::execute, StackFrame::method_call", "clr_lite/src/vm/interpreter/mod.rs: Interpreter::execute", "clr_lite/src/vm/mod.rs: ClrLite::execute"]}
{"id": "C116", "title": "Programs without loops and recursion come to an end", "statement": "If no instruction that control can come to in a method, or in the methods it calls directly or indirectly, can be come to again from itself, and no method can be called again from itself, then the execution of the method ends, with a result, an error or a panic, within a number of instructions and nested calls that is fixed by the number of methods and the length of the longest one, whatever the parameters.", "quantifier": "all programs and methods without loops and recursion, all parameters, all arithmetic and registry states, both builds", "why_tests_cant": "Not ending cannot be observed by running; a test of one method with chosen parameters says nothing about other paths through it, and programs are infinitely many.", "anchors": ["clr_lite/src/vm/interpreter/stack_frame.rs: StackFrame::execute, StackFrame::method_call", "clr_lite/src/vm/interpreter/mod.rs: Interpreter::execute", "clr_lite/src/vm/mod.rs: ClrLite::execute"]}
{"id": "C117", "title": "Only the code that control can come to matters", "statement": "Bytes of a method's code that control cannot come to may be changed, added at the end or removed there, in any number of methods at once, and so may everything else of a body but the number of its locals: the program ends if it ended before and conversely, with the same result, error or panic, and leaves the same registry, host's parameters and objects.", "quantifier": "all programs, methods, arguments, all replacements of unreachable bytes, whether the execution ends or not, both builds", "why_tests_cant": "Padding, dead code and obfuscation put arbitrary bytes between instructions; the byte sequences and the programs are infinitely many, and a test cannot show that no byte influences any execution.", "anchors": ["clr_lite/src/vm/interpreter/stack_frame.rs: StackFrame::execute, StackFrame::method_call", "clr_lite/src/vm/interpreter/mod.rs: Interpreter::execute", "clr_lite/src/vm/mod.rs: ClrLite::execute"]}
{"id": "C118", "title": "The names of methods and parameters do not matter to programs", "statement": "Methods of loaded assemblies and their parameters may be renamed, any number of them and several to the same name: a program ends if it ended before and conversely, with the same result, error or panic, and leaves the same objects, host's parameters and registry, up to the names. Calls go by token, never by name.", "quantifier": "all registries, programs, arguments and renamings, whether the execution ends or not, both builds", "why_tests_cant": "Obfuscators rename everything; a lookup by name on some path would show only for names that collide, and names, collisions and programs are infinitely many.", "anchors": ["clr_lite/src/vm/interpreter/stack_frame.rs: StackFrame::execute, StackFrame::method_call", "clr_lite/src/vm/interpreter/mod.rs: Interpreter::execute", "clr_lite/src/vm/reflection/assembly.rs: Assembly::resolve_method"]}
{"id": "C119", "title": "Failures in protected regions are handled", "statement": "If an instruction inside a protected region fails with an exception of the standard, such as a division by zero, the handler of the region is executed and the program goes on from there; a region that is left without a failure leaves the method's result as computed.", "quantifier": "all programs with protected regions, all handlers, all arguments, both builds", "why_tests_cant": "A test has some handlers and some failures. That handlers have no influence on any execution of any program, as is the case here, is a statement about all programs and all handlers.", "anchors": ["clr_lite/src/vm/interpreter/stack_frame.rs: StackFrame::execute", "clr_lite/src/vm/reflection/method_body.rs: MethodBody::exception_handling_clauses, ExceptionClause"]}
{"id": "C120", "title": "Variables of small integer types hold only values of their types", "statement": "Storing a 32-bit value in a variable or parameter of an integer type with 8 or 16 bits keeps the bits the type has; loading the variable gives the value of the type with these bits.", "quantifier": "all small integer types, all 32-bit values, all programs, both builds", "why_tests_cant": "A test stores a few values in a few variables. That the declared types of variables have no influence on any execution of any program, as is the case here, is a statement about all programs.", "anchors": ["clr_lite/src/vm/interpreter/stack_frame.rs: StackFrame::execute", "clr_lite/src/vm/reflection/method_body.rs: MethodBody::local_variables, MethodBody::max_stack, MethodBody::init_locals"]}
{"id": "C121", "title": "Equal literals are the same string", "statement": "Loading two string literals with the same text gives the same object, wherever they are loaded, and comparing two references says whether they are the same object.", "quantifier": "all literals, all methods and frames, all machine states, both builds", "why_tests_cant": "A test compares a few literals at a few places. How references compare in every state, and that a literal is never an object that was there before, as is the case here, are statements about all of them.", "anchors": ["clr_lite/src/vm/interpreter/stack_frame.rs: StackFrame::execute", "clr_lite/src/vm/gc/mod.rs: GcHeap::alloc_string", "clr_lite/src/vm/interpreter/value.rs: Value"]}
{"id": "C122", "title": "Programs that only compute leave no trace", "statement": "If neither the executed method nor any method it calls, directly or indirectly, comes to an instruction that makes or changes objects or writes output, the execution makes and changes no objects, writes nothing and leaves everything loaded as it was, however it ends.", "quantifier": "all registries, programs of this kind, arguments, whether the execution ends, fails or goes on for ever, both builds", "why_tests_cant": "A test sees the state after some executions. That no instruction among arithmetic, branches, variables, calls and loads changes anything but operands and variables, in any program and at any time, is a statement about all of them.", "anchors": ["clr_lite/src/vm/interpreter/stack_frame.rs: StackFrame::execute, StackFrame::method_call", "clr_lite/src/vm/interpreter/mod.rs: Interpreter::execute", "clr_lite/src/vm/mod.rs: ClrLite::execute"]}
