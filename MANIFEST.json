{
 "claims": [
  {
   "property": "C01",
   "status": "proved",
   "theorems": [
    "Clr.C01_read_exact",
    "Clr.C01_address_limit_refuted"
   ],
   "note": "all widths and positions with p+w < 2^64; the second theorem shows the address bound is needed"
  },
  {
   "property": "C02",
   "status": "proved",
   "theorems": [
    "Clr.C02_read_array",
    "Clr.C02_count_overflow_refuted"
   ],
   "note": "products that fit an address; the second theorem shows the bound is needed"
  },
  {
   "property": "C03",
   "status": "partial",
   "theorems": [
    "Clr.C03_peek_scalar",
    "Clr.C03_peek_array_refuted",
    "Clr.C03_peek_array_partial"
   ],
   "note": "scalar peeks agree with reads; peek_array rejects an array that ends exactly at the end of the buffer, so the property is false there (refuted), and proved for all other arrays"
  },
  {
   "property": "C04",
   "status": "proved",
   "theorems": [
    "Clr.C04_read_str",
    "Clr.C04_c_str_round_trip",
    "Clr.C04_padded_round_trip"
   ],
   "note": ""
  },
  {
   "property": "C05",
   "status": "proved",
   "theorems": [
    "Clr.C05_parse_total"
   ],
   "note": ""
  },
  {
   "property": "C06",
   "status": "proved",
   "theorems": [
    "Clr.C06_round_trip"
   ],
   "note": ""
  },
  {
   "property": "C07",
   "status": "proved",
   "theorems": [
    "Clr.C07_resolve"
   ],
   "note": ""
  },
  {
   "property": "C08",
   "status": "partial",
   "theorems": [
    "Clr.C08_hostile_sections_refuted",
    "Clr.C08_no_wrap_partial",
    "Clr.C08_release_total_partial"
   ],
   "note": "false of the code: u32 overflow panics in debug builds and makes release builds disagree; proved for non-wrapping sections and totality in release"
  },
  {
   "property": "C09",
   "status": "proved",
   "theorems": [
    "Clr.C09_streams",
    "Clr.C09_unknown"
   ],
   "note": "whole-file statement: PE image, CLI header, metadata root, streams"
  },
  {
   "property": "C10",
   "status": "partial",
   "theorems": [
    "Clr.C10_refuted",
    "Clr.C10_memory_safe_partial",
    "Clr.C10_returns_partial"
   ],
   "note": "false of the code: unchecked positions and missing streams panic; proved: never reads outside the file, and returns when the trusted positions are in range"
  },
  {
   "property": "C100",
   "status": "partial",
   "theorems": [
    "Clr.C100_partial",
    "Clr.C100_refuted"
   ],
   "note": "programs with at most 64 variables in use at the same time: more is undefined behaviour (C100_refuted). The source has no meaning for locals read before assignment. The assembler writes one class, no entry point, at most 2047 procedures"
  },
  {
   "property": "C101",
   "status": "partial",
   "theorems": [
    "Clr.C101_checked",
    "Clr.C101_partial",
    "Clr.C101_constants",
    "Clr.C101_refuted",
    "Clr.C101_string",
    "Clr.C101_string_read",
    "Clr.C101_two_strings",
    "Clr.C101_first_string",
    "Clr.C101_element_read",
    "Clr.C101_element_write",
    "Clr.C101_field_write",
    "Clr.C101_rows_refuted",
    "Clr.C101_files",
    "Clr.C101_files_never",
    "Clr.C101_files_types",
    "Clr.C101_files_refuted",
    "Clr.C101_bodies",
    "Clr.C101_bodies_never",
    "Clr.C101_bodies_tiny",
    "Clr.C101_strings",
    "Clr.C101_strings_short",
    "Clr.C101_strings_never",
    "Clr.C101_fields",
    "Clr.C101_methods",
    "Clr.C101_properties",
    "Clr.C101_specs",
    "Clr.C101_signatures_checked",
    "Clr.C101_signatures_low",
    "Clr.C101_signatures_never"
   ],
   "note": "false of the code: for every placement of the buffers two four-byte constants in a row, two strings in a row, or two rows of types in a file include a misaligned access (C101_constants, C101_two_strings, C101_rows_refuted). Holds for code with aligned operands that does not look into objects (C101_partial). C101_files says exactly at which addresses a file of the format (headers, streams, every row of every table) is read without a misaligned access; with two rows of types, or as PE32+ with the tables off by four, there is none (C101_files_types, C101_files_never). C101_bodies and C101_strings do the same for method bodies and user strings; there is none for a body with a small exception clause (C101_bodies_never), nor for a heap with a string of 64 units behind shorter ones (C101_strings_never). C101_fields, C101_methods, C101_properties and C101_specs do the same for signatures, which are misaligned for every address if two fields of classes in rows from 32 on follow each other (C101_signatures_never). Not modelled: the host's access to arrays; loading is not repeated as a whole with the checked readers of signatures"
  },
  {
   "property": "C102",
   "status": "partial",
   "theorems": [
    "Clr.C102_partial",
    "Clr.C102_strings",
    "Clr.C102_no_code",
    "Clr.C102_execute",
    "Clr.C102_refuted"
   ],
   "note": "the two methods of String are not implemented: every call panics (C102_strings, C102_refuted)"
  },
  {
   "property": "C103",
   "status": "partial",
   "theorems": [
    "Clr.C103_drop",
    "Clr.C103_exact",
    "Clr.C103_kept",
    "Clr.C103_partial",
    "Clr.C103_end_partial",
    "Clr.C103_runtime",
    "Clr.C103_links",
    "Clr.C103_assembly",
    "Clr.C103_members_partial",
    "Clr.C103_refuted"
   ],
   "note": "false of the code: a class with a method that has a local variable of the class itself, and everything it refers to, is never freed (C103_refuted); C103_exact says exactly what is alive after any history, C103_partial is the claim where no type leads back to itself. The counts after a load are those of the references that the loaded things hold; the temporary handles inside a load or an execution are not modelled"
  },
  {
   "property": "C104",
   "status": "partial",
   "theorems": [
    "Clr.C104_instance",
    "Clr.C104_fields",
    "Clr.C104_sizes_partial",
    "Clr.C104_doubled",
    "Clr.C104_counted",
    "Clr.C104_depth",
    "Clr.C104_refuted",
    "Clr.C104_full_refuted"
   ],
   "note": "false of the code for sizes: a file of less than 2500 bytes with fifty-one structs makes one size take 2^50 steps (C104_refuted); the bound holds for instance tests, lists of fields, and sizes without nested structs. Steps are visits of a type or a field, counted in copies of the functions that give the same answers (C104_counted)"
  },
  {
   "property": "C105",
   "status": "partial",
   "theorems": [
    "Clr.C105_counted",
    "Clr.C105_load_counted",
    "Clr.C105_tables_partial",
    "Clr.C105_signatures_partial",
    "Clr.C105_bodies_partial",
    "Clr.C105_load_partial",
    "Clr.C105_bounded",
    "Clr.C105_refuted",
    "Clr.C105_refuted_signatures",
    "Clr.C105_refuted_load",
    "Clr.C105_full_refuted"
   ],
   "note": "holds for what is read successfully: tables, signatures, method bodies, and whole files (at most 4 (n+2)^2 elements for a file of n bytes). False for what is rejected: a table stream of 28 bytes requests memory for 2^32 - 1 rows, a signature of 6 bytes for 2^29 - 1 parameters, files of less than 900 bytes for 2^29 - 1 local variables, 699050 clauses, 65534 fields (C105_refuted, C105_refuted_load). Requests are counted in elements, in copies of the readers and the loader that give the same results (C105_counted, C105_load_counted); every with_capacity and reserve of the two is included except that of one string of 128 bytes per method (method.rs:123)"
  },
  {
   "property": "C106",
   "status": "partial",
   "theorems": [
    "Clr.C106_partial",
    "Clr.C106_again",
    "Clr.C106_refuted",
    "Clr.C106_full_refuted"
   ],
   "note": "for executions that do not panic and make no new array type, whatever the program. A method that panics because a core type is missing works once a library defines it (C106_refuted)"
  },
  {
   "property": "C107",
   "status": "partial",
   "theorems": [
    "Clr.C107_kept_partial",
    "Clr.C107_surplus",
    "Clr.C107_missing",
    "Clr.C107_refuted",
    "Clr.C107_refuted_missing",
    "Clr.C107_full_refuted"
   ],
   "note": "false of the code: an instruction that stores into an argument of the executed method changes the array of the host (C107_refuted), and a missing argument is a panic when it is used (C107_missing, C107_refuted_missing). C107_kept_partial has the claim for each argument that the executed method itself does not store into; C107_surplus is about executions that do not panic and make no new array type"
  },
  {
   "property": "C108",
   "status": "proved",
   "theorems": [
    "Clr.C108_tail",
    "Clr.C108_tail_program",
    "Clr.C108_headers",
    "Clr.C108_headers_program"
   ],
   "note": "the sections are such that addresses and file offsets of their data stay below 2^32, and their data starts after the headers that differ; bytes at the end are compared for loads that succeed, since a file that is cut short may load when the missing bytes are added"
  },
  {
   "property": "C109",
   "status": "partial",
   "theorems": [
    "Clr.C109_packed_partial",
    "Clr.C109_refuted_packing",
    "Clr.C109_refuted_offsets",
    "Clr.C109_refuted_sizes",
    "Clr.C109_full_refuted"
   ],
   "note": "false of the code: explicit offsets, declared sizes and packing sizes other than 1 have no effect. C109_packed_partial has the claim for packing size 1, with the limits of C38 (types built from primitive and struct instance fields registered earlier)"
  },
  {
   "property": "C11",
   "status": "partial",
   "theorems": [
    "Clr.C11_partial",
    "Clr.C11_refuted"
   ],
   "note": "The row number is decremented twice: the entry point is the method of row k-1, and row 1 is never accepted. The full claim C11_full is refuted."
  },
  {
   "property": "C110",
   "status": "partial",
   "theorems": [
    "Clr.C110_none_partial",
    "Clr.C110_never",
    "Clr.C110_refuted",
    "Clr.C110_full_refuted"
   ],
   "note": "false of the code: a loop that makes strings of one character and drops them uses fifteen bytes for each, for every number of rounds (C110_refuted), and in builds with overflow checks no execution ever uses less memory than before (C110_never). Holds for methods that create nothing, with all that they call (C110_none_partial). Objects are dropped in the sense that no variable and no operand refers to them; fields cannot hold references (C46)"
  },
  {
   "property": "C111",
   "status": "proved",
   "theorems": [
    "Clr.C111_size",
    "Clr.C111_instance",
    "Clr.C111_fields",
    "Clr.C111_methods",
    "Clr.C111_load",
    "Clr.C111_load_ends",
    "Clr.C111_load_never",
    "Clr.C111_execute"
   ],
   "note": "nested calls, not bytes of native stack; in executions only the calls for sizes are limited, the calls of the program are not"
  },
  {
   "property": "C112",
   "status": "partial",
   "theorems": [
    "Clr.C112_exact",
    "Clr.C112_panics_iff",
    "Clr.C112_round_trip_partial",
    "Clr.C112_not_text_refuted"
   ],
   "note": "False of the code: a name field that is not UTF-8 makes asking for the name panic (C112_not_text_refuted), and NULs at the front are lost. Proved: the exact result for every name field, when it panics, and the round trip of padded texts through a parsed file."
  },
  {
   "property": "C113",
   "status": "partial",
   "theorems": [
    "Clr.C113_exact",
    "Clr.C113_numbers",
    "Clr.C113_constant",
    "Clr.C113_not_a_value_refuted"
   ],
   "note": "False of the code at bool and char: safe reads of patterns that are no value are undefined behaviour (C113_not_a_value_refuted). Proved: the exact result for every type, buffer and position; safety at all number types; the round trip of constants. Alignment of the read is C101."
  },
  {
   "property": "C114",
   "status": "partial",
   "theorems": [
    "Clr.C114_same",
    "Clr.C114_chain",
    "Clr.C114_leaf",
    "Clr.C114_partial",
    "Clr.C114_refuted"
   ],
   "note": "False of the code: there is no limit, a method that calls itself nests the interpreter for ever (C114_refuted). Proved: the active calls form a chain of call instructions in the code, so that programs without recursion stay within the number of methods and one. Nested calls are counted, not bytes of native stack."
  },
  {
   "property": "C115",
   "status": "partial",
   "theorems": [
    "Clr.C115_partial",
    "Clr.C115_method_partial",
    "Clr.C115_refuted"
   ],
   "note": "False of the code for the two-byte forms of ldarg and starg, whose operands are read as four bytes (C115_refuted). Proved for all other encodings, for whole programs and in both directions (ending and not ending). Not claimed for instructions that are not implemented (the message names the address), nor for control flow that runs off the code."
  },
  {
   "property": "C116",
   "status": "partial",
   "theorems": [
    "Clr.C116_partial",
    "Clr.C116_refuted"
   ],
   "note": "False of the code for the two-byte forms of ldarg and starg: their operand swallows the two bytes after it, so that a method of ldarg 0 and ret, with unreachable bytes behind, runs for ever (C116_refuted). Proved for all other code, with an explicit bound; the premise that every registered type has a size is C111's subject."
  },
  {
   "property": "C117",
   "status": "partial",
   "theorems": [
    "Clr.C117_partial",
    "Clr.C117_method_partial",
    "Clr.C117_refuted"
   ],
   "note": "False of the code for the two-byte forms of ldarg and starg, which take the bytes behind their operand for a part of it (C117_refuted). Proved for all other code, for whole programs and in both directions (ending and not ending). Not claimed for code in which control comes to instructions that are not implemented or not complete."
  },
  {
   "property": "C118",
   "status": "proved",
   "theorems": [
    "Clr.C118_renamed"
   ],
   "note": "About methods and parameters once they are loaded; binding to methods of the runtime at load time goes by name (C43). Names of types do matter, since core types are found by name."
  },
  {
   "property": "C119",
   "status": "partial",
   "theorems": [
    "Clr.C119_ignored",
    "Clr.C119_refuted"
   ],
   "note": "False of the code: a division by zero in a protected region panics whatever the handler (C119_refuted). Proved instead is exactly what handlers do, for all programs: nothing (C119_ignored); clauses are decoded (C33) and never looked at."
  },
  {
   "property": "C12",
   "status": "proved",
   "theorems": [
    "Clr.C12_lookup_exact",
    "Clr.C12_suffix"
   ],
   "note": ""
  },
  {
   "property": "C120",
   "status": "partial",
   "theorems": [
    "Clr.C120_partial",
    "Clr.C120_ignored",
    "Clr.C120_refuted"
   ],
   "note": "False of the code: a variable of type sbyte holds 300 (C120_refuted). Proved for values that the type has (C120_partial) and, for all programs, what declared types of variables and parameters do: nothing (C120_ignored). Missing is the truncation itself, which the code lacks."
  },
  {
   "property": "C121",
   "status": "partial",
   "theorems": [
    "Clr.C121_partial",
    "Clr.C121_distinct",
    "Clr.C121_refuted"
   ],
   "note": "False of the code: every ldstr makes a new object, so that a program finds two equal literals different (C121_refuted; C121_distinct for all literals and states with less than 2^64 bytes of objects). Proved: ceq of references is identity (C121_partial). References into a heap buffer that was freed are taken to differ from current ones, as Model/Value says."
  },
  {
   "property": "C122",
   "status": "partial",
   "theorems": [
    "Clr.C122_partial",
    "Clr.C122_refuted"
   ],
   "note": "False of the code for the two-byte forms of ldarg and starg: their operand swallows the two bytes after it, so that a method of ldarg 0 and ret, with unreachable bytes behind, makes a string (C122_refuted). Proved for all other programs without methods of 2^62 bytes."
  },
  {
   "property": "C13",
   "status": "proved",
   "theorems": [
    "Clr.C13_user_string"
   ],
   "note": "heap offsets below 2^24 (the token's index width)"
  },
  {
   "property": "C14",
   "status": "proved",
   "theorems": [
    "Clr.C14_resources"
   ],
   "note": ""
  },
  {
   "property": "C15",
   "status": "proved",
   "theorems": [
    "Clr.C15_unpack",
    "Clr.C15_injective"
   ],
   "note": ""
  },
  {
   "property": "C16",
   "status": "proved",
   "theorems": [
    "Clr.C16_round_trip",
    "Clr.C16_total"
   ],
   "note": ""
  },
  {
   "property": "C17",
   "status": "proved",
   "theorems": [
    "Clr.C17_confined",
    "Clr.C17_independent"
   ],
   "note": ""
  },
  {
   "property": "C18",
   "status": "partial",
   "theorems": [
    "Clr.C18_open_refuted",
    "Clr.C18_open_partial"
   ],
   "note": "false of the code: an overlong declared length or an offset past the heap panics; the partial theorem characterises exactly when opening returns"
  },
  {
   "property": "C19",
   "status": "proved",
   "theorems": [
    "Clr.C19_round_trip"
   ],
   "note": ""
  },
  {
   "property": "C20",
   "status": "proved",
   "theorems": [
    "Clr.C20_total"
   ],
   "note": "stack depth and memory reservation for hostile counts are not modelled"
  },
  {
   "property": "C21",
   "status": "partial",
   "theorems": [
    "Clr.C21_lower_bounds_refuted",
    "Clr.C21_zero_based_partial"
   ],
   "note": "false of the code for non-zero lower bounds (read as unsigned); proved for zero lower bounds"
  },
  {
   "property": "C22",
   "status": "proved",
   "theorems": [
    "Clr.C22_method",
    "Clr.C22_field",
    "Clr.C22_property",
    "Clr.C22_method_spec",
    "Clr.C22_type_spec"
   ],
   "note": ""
  },
  {
   "property": "C23",
   "status": "partial",
   "theorems": [
    "Clr.C23_field_refuted",
    "Clr.C23_total_partial"
   ],
   "note": "false of the code for field signatures starting with a custom modifier (panic); everything else proved total"
  },
  {
   "property": "C24",
   "status": "proved",
   "theorems": [
    "Clr.C24_round_trip"
   ],
   "note": ""
  },
  {
   "property": "C25",
   "status": "partial",
   "theorems": [
    "Clr.C25_refuted",
    "Clr.C25_round_trip_partial",
    "Clr.C25_only_assigned"
   ],
   "note": "false of the code for custom attributes on security declarations (tag 8 rejected); proved for all other pairs, and that only assigned tags are accepted"
  },
  {
   "property": "C26",
   "status": "partial",
   "theorems": [
    "Clr.C26_refuted",
    "Clr.C26_widths_partial"
   ],
   "note": "false of the code at exactly 2^(16-n) rows and when security declarations widen custom-attribute parents; proved otherwise"
  },
  {
   "property": "C27",
   "status": "partial",
   "theorems": [
    "Clr.C27_refuted",
    "Clr.C27_round_trip_partial"
   ],
   "note": "all 38 tables; false of the code for custom attributes on security declarations; proved otherwise outside the C26 exceptions"
  },
  {
   "property": "C28",
   "status": "partial",
   "theorems": [
    "Clr.C28_refuted",
    "Clr.C28_partial"
   ],
   "note": "false of the code: undecoded tables are neither skipped nor rejected; proved when they come last"
  },
  {
   "property": "C29",
   "status": "partial",
   "theorems": [
    "Clr.C29_refuted",
    "Clr.C29_partial"
   ],
   "note": "false of the code for the interface-implementation table; proved for all others"
  },
  {
   "property": "C30",
   "status": "proved",
   "theorems": [
    "Clr.C30_attributes"
   ],
   "note": ""
  },
  {
   "property": "C31",
   "status": "proved",
   "theorems": [
    "Clr.C31_tiny"
   ],
   "note": ""
  },
  {
   "property": "C32",
   "status": "proved",
   "theorems": [
    "Clr.C32_fat"
   ],
   "note": "Local types are resolved through the registry, one after the other (ResolveAll)."
  },
  {
   "property": "C33",
   "status": "proved",
   "theorems": [
    "Clr.C33_clauses"
   ],
   "note": "One section, small or fat, arbitrary padding bytes; all four clause kinds."
  },
  {
   "property": "C34",
   "status": "proved",
   "theorems": [
    "Clr.C34_ids",
    "Clr.C34_ids_checked",
    "Clr.C34_stable"
   ],
   "note": "Over every reachable registry: the identifier of each registered type is its registration position and lookup by identifier returns it, for at most 2^32 types (a debug build panics rather than exceed this). Later activity keeps identifier, name, namespace and position."
  },
  {
   "property": "C35",
   "status": "proved",
   "theorems": [
    "Clr.C35_latest",
    "Clr.C35_never_lost"
   ],
   "note": "Name lookup returns exactly the most recently registered type of that full name; a name that resolved keeps resolving, only ever to a newer type."
  },
  {
   "property": "C36",
   "status": "partial",
   "theorems": [
    "Clr.C36_same",
    "Clr.C36_distinct_partial",
    "Clr.C36_kind_partial",
    "Clr.C36_refuted"
   ],
   "note": "Requesting an array type twice gives the same type. That different element types get different array types, and that the result is an array type with that element, hold when no two types share a full name; false otherwise (C36_refuted)."
  },
  {
   "property": "C37",
   "status": "partial",
   "theorems": [
    "Clr.C37_partial",
    "Clr.C37_loaded_partial",
    "Clr.C37_base_classes",
    "Clr.C37_refuted"
   ],
   "note": "Exact for base classes when names are distinct and the chain ends, which it does after loads that returned if those of the number types do (C37_loaded_partial). Interfaces are only consulted at the root of the base chain, so the full claim is false (C37_refuted)."
  },
  {
   "property": "C38",
   "status": "partial",
   "theorems": [
    "Clr.C38_partial",
    "Clr.C38_refuted_static",
    "Clr.C38_refuted_reference",
    "Clr.C38_refuted_order"
   ],
   "note": "for classes built from primitive and struct instance fields whose types and bases are registered earlier; static fields, reference fields and bases declared later break the layout (C38_refuted_*)"
  },
  {
   "property": "C39",
   "status": "proved",
   "theorems": [
    "Clr.C39_methods",
    "Clr.C39_fields",
    "Clr.C39_types",
    "Clr.C39_refs"
   ],
   "note": "For every successful load from any reachable registry: token k resolves to the member defined by row k (name, flags, signature, body), declared by the type owning the row; type reference tokens resolve to a type of the name the row gives."
  },
  {
   "property": "C40",
   "status": "partial",
   "theorems": [
    "Clr.C40_partial",
    "Clr.C40_refuted",
    "Clr.C40_skipped_refuted"
   ],
   "note": "Declaring type and name are right when all member references have type-reference parents. The signature is ignored and other rows are skipped without leaving a gap, so the full claim is false."
  },
  {
   "property": "C41",
   "status": "partial",
   "theorems": [
    "Clr.C41_partial",
    "Clr.C41_refuted"
   ],
   "note": "proved for names not loaded yet, on every reference graph, when each file is found under its own name; refuted for a name that is loaded already: it is loaded a second time"
  },
  {
   "property": "C42",
   "status": "partial",
   "theorems": [
    "Clr.C42_partial",
    "Clr.C42_cycles_partial",
    "Clr.C42_refuted",
    "Clr.C42_refuted_size"
   ],
   "note": "for reference graphs without cycles the recursion depth is bounded by the rank; assemblies on a cycle never load; refuted for a self-referencing assembly, whose recursion exceeds every depth, and for a file without references with a struct that has a field of its own type (C42_refuted_size). A load that succeeds needs no more depth than what it adds (C111_load)"
  },
  {
   "property": "C43",
   "status": "partial",
   "theorems": [
    "Clr.C43_keys_partial",
    "Clr.C43_bound_partial",
    "Clr.C43_refuted"
   ],
   "note": "Keys are injective on names without the separators, and a bound native function has exactly the documented declaring type, name and parameter types; names containing a dot defeat it (C43_refuted)."
  },
  {
   "property": "C44",
   "status": "proved",
   "theorems": [
    "Clr.C44",
    "Clr.C44_one"
   ],
   "note": "for every sequence of allocations of objects, arrays and strings that succeeds, with sizes together below 2^64"
  },
  {
   "property": "C45",
   "status": "partial",
   "theorems": [
    "Clr.C45_partial",
    "Clr.C45_refuted"
   ],
   "note": "when the heap's memory does not have to grow; otherwise references dangle (C45_refuted)"
  },
  {
   "property": "C46",
   "status": "partial",
   "theorems": [
    "Clr.C46_partial",
    "Clr.C46_refuted"
   ],
   "note": "for numbers of the field's own type; int stores to narrow fields overwrite the neighbour and references cannot be stored (C46_refuted)"
  },
  {
   "property": "C47",
   "status": "proved",
   "theorems": [
    "Clr.C47_new",
    "Clr.C47_inside",
    "Clr.C47_outside",
    "Clr.C47_others"
   ],
   "note": "for the two array instructions that exist (ldelem.i4, stelem.i4)"
  },
  {
   "property": "C48",
   "status": "proved",
   "theorems": [
    "Clr.C48_arith",
    "Clr.C48_neg",
    "Clr.C48_bitwise",
    "Clr.C48_not",
    "Clr.C48_shift",
    "Clr.C48_shift_count"
   ],
   "note": "for every machine state with the operands on top; overflow stops a build with overflow checks, otherwise the result wraps"
  },
  {
   "property": "C49",
   "status": "proved",
   "theorems": [
    "Clr.C49"
   ],
   "note": ""
  },
  {
   "property": "C50",
   "status": "partial",
   "theorems": [
    "Clr.C50_partial",
    "Clr.C50_refuted"
   ],
   "note": "the unsigned instructions are signed in the code: right for operands below 2^31 only"
  },
  {
   "property": "C51",
   "status": "proved",
   "theorems": [
    "Clr.C51_compare",
    "Clr.C51_branch2",
    "Clr.C51_branch1"
   ],
   "note": ""
  },
  {
   "property": "C52",
   "status": "proved",
   "theorems": [
    "Clr.C51_branch2",
    "Clr.C51_branch1",
    "Clr.C52_br"
   ],
   "note": "code shorter than 2^62 bytes"
  },
  {
   "property": "C53",
   "status": "partial",
   "theorems": [
    "Clr.C53_partial",
    "Clr.C53_constants",
    "Clr.C53_short_constants",
    "Clr.C53_call",
    "Clr.C53_refuted"
   ],
   "note": "every instruction with a row in the encoding table of the standard except ldarg and starg with two-byte index, which read four bytes (C53_refuted)"
  },
  {
   "property": "C54",
   "status": "partial",
   "theorems": [
    "Clr.C54_partial",
    "Clr.C54_ret",
    "Clr.C54_void",
    "Clr.C54_refuted"
   ],
   "note": "for methods with a body when the memory for locals and arguments has room; when it has to be moved the callee cannot read its arguments (C54_refuted)"
  },
  {
   "property": "C55",
   "status": "proved",
   "theorems": [
    "Clr.C55",
    "Clr.C55_host"
   ],
   "note": "for every method and however it ends, including panics"
  },
  {
   "property": "C56",
   "status": "partial",
   "theorems": [
    "Clr.C56_partial",
    "Clr.C56_refuted",
    "Clr.C56_deep"
   ],
   "note": "when the memory for locals and arguments was not moved during the call; false otherwise, for instance at recursion depth 65"
  },
  {
   "property": "C57",
   "status": "partial",
   "theorems": [
    "Clr.C57_partial",
    "Clr.C57_frames",
    "Clr.C57_refuted"
   ],
   "note": "all encodings except ldarg and starg with two-byte index"
  },
  {
   "property": "C58",
   "status": "partial",
   "theorems": [
    "Clr.C58_partial",
    "Clr.C58_refuted"
   ],
   "note": "all encodings except ldarg with a two-byte index, for which it fails (C58_refuted)"
  },
  {
   "property": "C59",
   "status": "partial",
   "theorems": [
    "Clr.C59_new",
    "Clr.C59_partial",
    "Clr.C59_refuted"
   ],
   "note": "when the memory for locals and arguments has room; when it has to be moved the constructor cannot read its arguments (C59_refuted)"
  },
  {
   "property": "C60",
   "status": "partial",
   "theorems": [
    "Clr.C60_partial",
    "Clr.C60_two_bytes_partial",
    "Clr.C60_refuted"
   ],
   "note": "exact for one-byte instructions; two-byte ones are reported one byte late; the prefix no. panics"
  },
  {
   "property": "C61",
   "status": "proved",
   "theorems": [
    "Clr.C61",
    "Clr.C61_host",
    "Clr.C61_write",
    "Clr.C61_literal",
    "Clr.C61_grows",
    "Clr.C61_instructions"
   ],
   "note": "for every execution, however it ends"
  },
  {
   "property": "C62",
   "status": "proved",
   "theorems": [
    "Clr.C62"
   ],
   "note": ""
  },
  {
   "property": "C63",
   "status": "partial",
   "theorems": [
    "Clr.C63_partial",
    "Clr.C63_refuted"
   ],
   "note": "the local is a zero for branches, but an 8-bit one: adding an int to it panics"
  },
  {
   "property": "C64",
   "status": "partial",
   "theorems": [
    "Clr.C64_partial",
    "Clr.C64_call",
    "Clr.C64_refuted",
    "Clr.C64_refuted_host"
   ],
   "note": "for programs whose evaluation stacks are balanced (the depth at every address is consistent); a callee that pops too much takes its caller's operands (C64_refuted)"
  },
  {
   "property": "C65",
   "status": "partial",
   "theorems": [
    "Clr.C65_partial",
    "Clr.C65_refuted"
   ],
   "note": "holds for code without ldarg and starg with two-byte index"
  },
  {
   "property": "C66",
   "status": "partial",
   "theorems": [
    "Clr.C66_partial",
    "Clr.C66_early_partial",
    "Clr.C66_refuted"
   ],
   "note": "old type records are kept and lookups change only for names the attempt registered; early failures change nothing; refuted: a failing assembly re-binds System.Int32"
  },
  {
   "property": "C67",
   "status": "proved",
   "theorems": [
    "Clr.C67_total"
   ],
   "note": "memory reservation for announced row counts is not modelled"
  },
  {
   "property": "C68",
   "status": "proved",
   "theorems": [
    "Clr.C68_named",
    "Clr.C68_resolves"
   ],
   "note": "Success is stated for fewer than 2^32 registered types."
  },
  {
   "property": "C69",
   "status": "partial",
   "theorems": [
    "Clr.C69_partial",
    "Clr.C69_refuted"
   ],
   "note": "only numeric results are given to the host; every object result is read from freed memory"
  },
  {
   "property": "C70",
   "status": "partial",
   "theorems": [
    "Clr.C70_partial",
    "Clr.C70_refuted"
   ],
   "note": "the shifts of 64-bit integers stop the program for the 32-bit counts the standard prescribes"
  },
  {
   "property": "C71",
   "status": "partial",
   "theorems": [
    "Clr.C71_partial",
    "Clr.C71_refuted"
   ],
   "note": "holds for static methods without parameters only; every other call leaves its argument slots behind"
  },
  {
   "property": "C72",
   "status": "partial",
   "theorems": [
    "Clr.C72_partial",
    "Clr.C72_refuted"
   ],
   "note": "programs that assign locals before using them, all encodings except ldarg and starg with a two-byte index; fresh locals are not 32-bit zeros (C72_refuted)"
  },
  {
   "property": "C73",
   "status": "partial",
   "theorems": [
    "Clr.C73_partial",
    "Clr.C73_leaf",
    "Clr.C73_refuted",
    "Clr.C73_refuted_release"
   ],
   "note": "as long as the interpreter does not have to move its memory (C73_leaf: always, for methods that neither call nor allocate); after a move references dangle (C73_refuted), and arrays of negative length corrupt memory in release builds (C73_refuted_release); results that are references are lost (C69)"
  },
  {
   "property": "C74",
   "status": "partial",
   "theorems": [
    "Clr.C74_partial",
    "Clr.C74_view",
    "Clr.C74_new",
    "Clr.C74_refuted"
   ],
   "note": "arrays of every element type but System.Object; object arrays have elements of size zero, so a store writes outside the array (C74_refuted)"
  },
  {
   "property": "C75",
   "status": "partial",
   "theorems": [
    "Clr.C75_partial",
    "Clr.C75_refuted"
   ],
   "note": "while the heap's memory does not have to grow; afterwards old handles may not be used (C75_refuted)"
  },
  {
   "property": "C76",
   "status": "proved",
   "theorems": [
    "Clr.C76"
   ],
   "note": ""
  },
  {
   "property": "C77",
   "status": "partial",
   "theorems": [
    "Clr.C77_partial",
    "Clr.C77_program_partial",
    "Clr.C77_refuted"
   ],
   "note": "names without path separators; a name with separators takes files outside the load directories (C77_refuted)"
  },
  {
   "property": "C78",
   "status": "partial",
   "theorems": [
    "Clr.C78_partial",
    "Clr.C78_interfaces_partial",
    "Clr.C78_refuted_base",
    "Clr.C78_refuted_kind"
   ],
   "note": "for base classes and interfaces with unique full names, and types other than System.Enum; types are looked up by full name, so nested classes with equal names are confused (C78_refuted_base), and System.Enum is taken for a value type (C78_refuted_kind)"
  },
  {
   "property": "C79",
   "status": "partial",
   "theorems": [
    "Clr.C79_partial",
    "Clr.C79_loaded_partial",
    "Clr.C79_refuted"
   ],
   "note": "for types other than System.ValueType and System.Enum, which are classes but are taken for value types of size zero (C79_refuted)"
  },
  {
   "property": "C80",
   "status": "partial",
   "theorems": [
    "Clr.C80_fields",
    "Clr.C80_fields_loaded",
    "Clr.C80_partial",
    "Clr.C80_doubled",
    "Clr.C80_refuted"
   ],
   "note": "fields in full when the base chain ends, which it does after loads that returned if those of the number types do (C80_fields_loaded); methods as a set when inheritance has no circles; methods of interfaces reached on many paths are listed as often (C80_doubled), and circles of interfaces are not detected (C80_refuted)"
  },
  {
   "property": "C81",
   "status": "partial",
   "theorems": [
    "Clr.C81_partial",
    "Clr.C81_answers",
    "Clr.C81_refuted"
   ],
   "note": "if the chains of the types with the names of number types end; circles through such a name are accepted, and instance tests on them never end (C81_refuted)"
  },
  {
   "property": "C82",
   "status": "proved",
   "theorems": [
    "Clr.C82",
    "Clr.C82_address"
   ],
   "note": "all 32-bit tokens; all addresses"
  },
  {
   "property": "C83",
   "status": "partial",
   "theorems": [
    "Clr.C83_partial",
    "Clr.C83_refuted"
   ],
   "note": "the text determines the simple names of the types and the name when these are free of punctuation; overloads whose parameter types differ in the namespace only print alike (C83_refuted)"
  },
  {
   "property": "C84",
   "status": "partial",
   "theorems": [
    "Clr.C84_partial",
    "Clr.C84_refuted"
   ],
   "note": "programs that assign locals before using them, with at most 64 locals and arguments in use at the same time, without two-byte ldarg/starg; a recursive sum is right up to 64 levels and undefined behaviour from 65 on (C84_refuted)"
  },
  {
   "property": "C85",
   "status": "partial",
   "theorems": [
    "Clr.C85_partial",
    "Clr.C85_file",
    "Clr.C85_refuted"
   ],
   "note": "valid metadata with any supported element types; an entry point in row 1 of the method table makes a valid assembly fail (C85_refuted, the double decrement of C11)"
  },
  {
   "property": "C86",
   "status": "partial",
   "theorems": [
    "Clr.C86_compare_partial",
    "Clr.C86_branch2_partial",
    "Clr.C86_branch1_partial",
    "Clr.C86_un_partial",
    "Clr.C86_refuted"
   ],
   "note": "all but cgt.un and clt.un of unordered numbers, which give 0, and branches on references, which panic (C86_refuted); what the hardware computes is a parameter"
  },
  {
   "property": "C87",
   "status": "partial",
   "theorems": [
    "Clr.C87_partial",
    "Clr.C87_neg",
    "Clr.C87_refuted"
   ],
   "note": "operands of the same width; operands of different width panic (C87_refuted); what the hardware computes is a parameter"
  },
  {
   "property": "C88",
   "status": "partial",
   "theorems": [
    "Clr.C88_partial",
    "Clr.C88_refuted"
   ],
   "note": "what C84 and C85 leave out: programs that assign locals before using them, with at most 64 locals and arguments in use, without two-byte ldarg/starg; entry points in other rows than row 1. A recursive sum in a valid file is undefined behaviour from 65 levels on (C88_refuted)"
  },
  {
   "property": "C89",
   "status": "partial",
   "theorems": [
    "Clr.C89_partial",
    "Clr.C89_refuted_heap",
    "Clr.C89_refuted_room",
    "Clr.C89_refuted_negative",
    "Clr.C89_refuted_object"
   ],
   "note": "programs that assign locals before using them, without two-byte ldarg/starg, with at most 64 variables in use and at most 1024 bytes of objects, returning no object to the host; nothing is said about negative array lengths in builds without overflow checks. Beyond each of these four limits the claim is false (the C89_refuted theorems). Values are numbers of the four types and references; fields hold numbers and array elements 32-bit integers. Shifts of 64-bit integers are left open (C70). The floating-point operations are a parameter; equality and ordering are assumed to agree on what is equal (LawfulEq)"
  },
  {
   "property": "C90",
   "status": "partial",
   "theorems": [
    "Clr.C90_partial",
    "Clr.C90_refuted_room",
    "Clr.C90_refuted_heap"
   ],
   "note": "what C85 and C89 leave out: programs that assign locals before using them, without two-byte ldarg/starg, with at most 64 variables in use and at most 1024 bytes of objects, returning no object to the host; nothing is said about negative array lengths in builds without overflow checks; entry points in other rows than row 1. Classes have instance fields of the four numeric types only, and their base classes are declared earlier in the file or registered. An example file is undefined behaviour beyond the limits on variables and bytes (C90_refuted_room, C90_refuted_heap)"
  },
  {
   "property": "C91",
   "status": "partial",
   "theorems": [
    "Clr.C91_partial",
    "Clr.C91_refuted"
   ],
   "note": "files without tables the code does not know (C28), without row counts that make it use a wrong column width (C26) and without custom attributes on security declarations; with one of these a valid file is rejected (C91_refuted). Fat method bodies are reached through C32 and C33 from the region theorem in C91"
  },
  {
   "property": "C92",
   "status": "partial",
   "theorems": [
    "Clr.C92_partial",
    "Clr.C92_no_argument",
    "Clr.C92_rejected",
    "Clr.C92_refuted"
   ],
   "note": "the program executes the method in the row before the one that the entry point names, and the output and result of that method are right, with the limits of C90; that it executes another method than the named one is C92_refuted. The text that dbg! prints for the result is not modelled"
  },
  {
   "property": "C93",
   "status": "partial",
   "theorems": [
    "Clr.C93_partial",
    "Clr.C93_answers",
    "Clr.C93_refuted"
   ],
   "note": "if among value types base classes are registered first; for sizes also if the base chains of the types with the names of number types end (C81) and System.ValueType is not listed as an interface. A value type whose base class comes later can be inside itself, and its size is never found (C93_refuted)"
  },
  {
   "property": "C94",
   "status": "proved",
   "theorems": [
    "Clr.C94",
    "Clr.C94_reads",
    "Clr.C94_program",
    "Clr.C94_panics"
   ],
   "note": "sessions of any host calls from any state; the library files that the two builds embed are the same (vm/mod.rs:79-100). That a panic of the build with checks can be a result in the build without is C94_panics"
  },
  {
   "property": "C95",
   "status": "proved",
   "theorems": [
    "Clr.C95",
    "Clr.C95_later",
    "Clr.C95_answers"
   ],
   "note": "C95 from any state, C95_answers from reachable ones"
  },
  {
   "property": "C96",
   "status": "partial",
   "theorems": [
    "Clr.C96_partial",
    "Clr.C96_refuted_room",
    "Clr.C96_refuted_heap"
   ],
   "note": "what C90 leaves out, and registries with 2^32 - 1 or more types; the limits on variables and bytes are real as in C90 (C96_refuted_room, C96_refuted_heap)"
  },
  {
   "property": "C97",
   "status": "partial",
   "theorems": [
    "Clr.C97_borrows_partial",
    "Clr.C97_rules",
    "Clr.C97_start",
    "Clr.C97_view_refuted",
    "Clr.C97_execute_refuted"
   ],
   "note": "about the borrows only: data is arbitrary, so the model has more executions than the code. With a view of the registry alive (clr.types()), array_of and execute can end in a refused borrow (C97_view_refuted, C97_execute_refuted)"
  },
  {
   "property": "C98",
   "status": "partial",
   "theorems": [
    "Clr.C98_types",
    "Clr.C98_assemblies",
    "Clr.C98_owner",
    "Clr.C98_assembly_partial",
    "Clr.C98_failed",
    "Clr.C98_refuted"
   ],
   "note": "the types that a failed load leaves behind answer no assembly: asking panics, now and later, and so does executing their methods (C98_failed, C98_refuted). What happens when the runtime object is dropped is C103"
  },
  {
   "property": "C99",
   "status": "proved",
   "theorems": [
    "Clr.C99_numbers",
    "Clr.C99_kind",
    "Clr.C99_arith",
    "Clr.C99_divide",
    "Clr.C99_negate",
    "Clr.C99_bitwise",
    "Clr.C99_complement",
    "Clr.C99_shift",
    "Clr.C99_shift_right",
    "Clr.C99_compare",
    "Clr.C99_mixed",
    "Clr.C99_float_bits"
   ],
   "note": "floating-point results are those of the hardware, as in C87"
  }
 ]
}