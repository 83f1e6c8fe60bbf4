# Formal model of clr_lite

## 1. Scope and method

`/repo` (a small CLR written in Rust) was read as text. It was never built or run. The Lean 4 project in
`/verif/lean` holds

* `Verif/Base.lean`, `Verif/Bytes.lean` – outcome type, build modes, byte strings;
* `Verif/Model/*` – the code, function by function. Every definition cites the file and lines it models and
  states its simplifications;
* `Verif/Spec/*` – small specifications written from ECMA-335 / the PE format, independent of the model's helpers
  (encoders, reference semantics, abstract states);
* `Verif/Lemmas/*` – helper lemmas;
* `Verif/Props/*` – the property theorems, each next to a concrete `example` that meets its hypotheses.

### Outcomes

Every modelled function that can fail returns `Res α`:

| constructor | meaning in Rust |
|---|---|
| `ok a`    | normal result |
| `err m`   | `Err(..)` or an explicit error value |
| `panic`   | any panic: slice index out of range, `unwrap` on `None`, `unimplemented!`, division by zero, checked overflow |
| `ub`      | undefined behaviour: an `unsafe` read outside the buffer, use of a dangling pointer |
| `timeout` | the fuel of a model function whose Rust original may not terminate ran out |

`None` results stay `Option`s. `Cfg.checks` distinguishes debug builds (arithmetic overflow panics) from release
builds (it wraps). All theorems quantify over both unless they say otherwise. The target is 64-bit little-endian.

### Trusted base

* the Lean 4.33.0 kernel and, at most, the axioms `propext`, `Classical.choice`, `Quot.sound`
  (`Verif/Audit.lean` prints the axioms of every property theorem); no other axioms, no `sorry`, no `native_decide`;
* the reading of the Rust source that the model records (the model is hand-written; nothing ties it mechanically to
  the source; the line references are there to be checked);
* the specification files, which transcribe ECMA-335 and the PE format.

As a check of the reading, `Verif/Replay.lean` evaluates the project's own interpreter tests (`tests.rs`, with the methods of `Tests.cs`
translated by hand) on the model; all agree with what `tests.rs` expects, except `test_load_string`, which looks at freed memory (C69).

### Not modelled

* allocation failure, `Vec::with_capacity` and `reserve` of hostile counts (except where a wrapped subtraction makes the
  request absurd, `reserveRun`), native stack overflow (nested calls are counted: C111, C114);
* alignment of raw-pointer accesses in the main model (all accesses are bytewise); the interpreter and the reading of files
  have a second model with checked addresses (`Model/Align`, `Model/AlignFiles`, `Model/AlignTables`, `Model/AlignBodies`, `Model/AlignSigs`, C101). Not repeated there: the
  host's access to array elements, and loading as a whole with the checked readers of signatures;
* floating-point arithmetic: the operations are a parameter (`FloatOps`) of the interpreter, so every theorem holds for
  all of them;
* `Rc` identity and counts in the main model (records live in lists and are addressed by position); who owns what, and what dropping
  handles frees, has a model of its own (`Model/Ownership`, C103), without the temporary handles inside a load or an execution; `RefCell` borrow state is not part of the main model
  but has a model of its own (`Model/Borrow`, C97); `Debug`/`Display`
  formatting other than in C82 and C83 (error messages that embed a formatted value are abbreviated), the file system (an abstract lookup function
  from names to contents; for C77 from paths to contents), standard output (a list of characters);
* host-supplied object references: arguments given by the host are numbers;
* test code and the C# libraries. The two embedded library files are arguments of `newRuntime`.

Assumptions made by the model about the platform: 64-bit little-endian; `size_of::<Value>() = 16`, and sixteen zero bytes
are the value `I8(0)` (first variant, first discriminant); `Vec::with_capacity(n)` reserves exactly `n`, and growing beyond
the capacity moves the buffer. Heap and local-variable buffers carry a generation number that changes when they move; a
pointer remembers the generation it was made in, and using an outdated one is `ub`.

### Model files

| file | models |
|---|---|
| `Model/BinaryReader`, `Model/Utf8` | `binary_reader/src/lib.rs`, `str::from_utf8` |
| `Model/Pe` | `pe.rs`: headers, sections and their names, CLI header, RVA resolution |
| `Model/Metadata`, `Model/StringsHeap`, `Model/UserString`, `Model/Token` | metadata root, streams, heaps, resources, tokens |
| `Model/Tables`, `Model/TableRows`, `Model/Attributes` | the table stream: header, all 38 row types, coded indices, handles, attribute words |
| `Model/Blob` | the blob heap, compressed integers, all signature kinds, marshalling descriptors |
| `Model/Typed` | `read::<T>()` of the reader and of blobs at each supported scalar type, constants of a file |
| `Model/World` | `ClrInternal`, `TypeInternal`, `Field`, `Method`: the registry and the queries on it |
| `Model/Loader` | `Type::load/resolve*`, `Field::load`, `Method::load`, `MethodBody::load`, `Assembly::load`, `ClrLite::new_runtime/load_assembly` |
| `Model/Value` | `vm/interpreter/value.rs`: values, arithmetic, comparisons, conversions |
| `Model/Opcodes` | the opcode table |
| `Model/Heap` | memory of `vm/gc/mod.rs` (bump allocation only) |
| `Model/Machine` | interpreter state, `vm/gc/*.rs`: allocation, objects, arrays, strings, field and element access |
| `Model/Array` | `vm/gc/array.rs`, `object.rs`, `string.rs`: what the host sees of arrays, objects and strings |
| `Model/Files` | `vm/mod.rs`: load directories, finding an assembly file by name |
| `Model/Interp` | fetching, every implemented instruction, calls, native methods, entry from the host |
| `Model/Main` | `test_program/src/main.rs`, `ClrLite::load_assembly_from_path` |
| `Model/Borrow` | which `RefCell`s every function of `vm/` borrows, and which guards are alive while it calls others |
| `Model/Align` | the typed memory accesses of the interpreter and of row reading, with addresses |
| `Model/AlignFiles`, `Model/AlignTables` | `parse_pe`, `Metadata::read` and all rows of tables, with addresses |
| `Model/Nesting` | `Interpreter::execute`, `StackFrame::method_call` and the loop of `StackFrame::execute` once more, counting nested calls |
| `Model/AlignBodies` | `MethodBody::load` and `Assembly::get_string`, with addresses |
| `Model/AlignSigs` | the readers of signatures and marshalling descriptors (metadata/blob/), with addresses |
| `Model/Ownership` | the strong and weak references between the reference-counted objects of `vm/`, and dropping handles |
| `Model/Cost` | the recursive questions about types of type.rs (339-433) once more, counting visits |
| `Model/Room` | the readers of tables (tables/mod.rs:241-416) and signatures (blob/) once more, counting what `Vec::with_capacity` is asked for |
| `Model/LoadRoom` | `Metadata::read`, `Assembly::load`, `Type::resolve`, `Method::load`, `MethodBody::load`, `Field::load` once more, counting what `with_capacity` and `reserve` are asked for |

## 2. Findings: where the code does not satisfy the stated property

(Each is proved as a theorem `…_refuted` with a concrete witness; the property keeps its full statement and a `_partial`
theorem covers what does hold.)

1. `peek_array` rejects an array that ends exactly at end of buffer (`>=` for `>`): C03.
2. `resolve_rva_` overflows `u32` for hostile sections (panic in debug, wrong range in release): C08.
3. `Metadata::read` panics on missing streams and out-of-range slices: C10.
4. The entry point is off by one row; row 1 is reported missing: C11, C85. So the command-line program executes another
   method than the one the file names: C92.
5. A blob length that overruns the heap panics: C18.
6. Array lower bounds are signed in ECMA-335 but read unsigned: C21.
7. Custom modifiers in a field signature panic: C23.
8. Coded index columns are 2 bytes wide at exactly 2^(16-n) rows (ECMA: 4): C26. `HasCustomAttribute` lacks tag 8: C25, C27.
9. Rows of unsupported tables are not skipped: C28.
10. `InterfaceImplHandle::from` misses the `+ 1`: C29.
11. Types with the same full name share one array type: C36.
12. `instance_of` ignores interfaces of any type with a base: C37.
13. Field offsets count static fields and the *contents* of reference types, and are computed from the base before the base
    has its fields when the base is declared later; sizes do none of this. Fields overlap or lie outside the object: C38.
14. Member references: rows with a parent that is not a TypeRef shift all later rows; overloads collapse: C40.
15. `load_assembly` loads a name again that is loaded already: C41. Cyclic assembly references recurse for ever: C42.
16. Native methods are bound by a printed signature that names containing separators can imitate: C43.
17. Growing the GC heap moves it while references into it are live: C45. Growing the locals buffer (64 slots) does the same
    to the arguments of all active frames, for instance at recursion depth 65: C54, C56, C59.
18. `stfld` writes the width of the value, not of the field; references cannot be stored; `bool` fields cannot be loaded: C46.
19. `*.un` instructions are signed: C50. `ldarg`/`starg` read a 4-byte index (ECMA: 2): C53, C57, C58, C65, C115, C116, C117.
20. Unsupported two-byte instructions are reported at the offset of their second byte, and `no.` panics: C60.
21. Unassigned locals read as an 8-bit integer, on which 32-bit arithmetic panics: C63, C72.
22. Callees can pop caller operands: C64.
23. A failed load leaves its types registered and can re-bind `System.Int32`: C66.
24. An object returned to the host is read after its heap was freed: C69.
25. Shifting a 64-bit integer by a 32-bit count panics: C70.
26. Argument slots are released only when the caller returns, so calls in a loop use unbounded memory: C71.
27. Well-typed programs corrupt memory or use dangling references when a buffer is moved; a release build treats an array of
    length -1 as one of 2^64 - 1 elements with 13 bytes: C73.
28. Elements of `object[]` have size zero, so storing one writes outside the array; arrays of other references refuse every
    reference (`TypeMismatch`), since the element type is compared with `System.Object` exactly: C74.
29. Object handles held by the host dangle once the heap grows: C75.
30. Assembly names that contain separators escape the load directories: C77.
31. Base classes and interfaces are looked up by full name, so a class may extend another nested class of the same name than
    the one declared: C78.
32. `System.Enum` and `System.ValueType` are taken for value types: C78, C79.
33. Methods of an interface reached on two ways are listed twice; circles of interfaces are accepted: C80.
34. Circles of base classes through the name of a number type are accepted: C81.
35. Printed methods leave out namespaces, so overloads may print alike: C83.
36. `cgt.un` and `clt.un` do not hold of unordered floating-point numbers, `brtrue` and `brfalse` on references panic: C86.
37. Arithmetic on a 32-bit and a 64-bit floating-point number panics: C87.
38. Value types that contain each other are accepted if the base class of one comes later in the file: C93.
39. `clr.types()` and `clr.assemblies()` hand out a guard on the whole runtime: while it is alive, `Type::array_of` for a new
    array type, loads and executions (through a cloned handle) panic: C97.
40. A failed load leaves its types registered (finding in C66), but nothing owns their assembly: `Type::assembly` panics for them
    (`Weak::upgrade().unwrap()`, type.rs:329), and so does executing their methods (stack_frame.rs:30): C98.
41. Numbers are accessed at addresses that are not aligned: operands in code (stack_frame.rs:485-489), characters after a header
    of 13 bytes (string.rs:29-37), elements after 17 (array.rs:157-187), fields after 5 (raw_object.rs), rows of 14 bytes
    (binary_reader/src/lib.rs:31-37). Every execution that makes a string does so on a usual heap. Undefined behaviour in Rust;
    newer compilers insert checks in debug builds, which abort: C101.
42. `String.get_Length` and `String.get_Item` are bound but `unimplemented!` (System_String.rs:6-12): every use of a string's length
    or characters panics: C102.
43. Methods own the types of their local variables (method_body.rs:15) and types own their methods (type.rs:539): a class with a method
    that has a local variable of the same class owns itself. It is never freed, nor is anything it refers to: every runtime that
    loaded such a class leaks when dropped: C103.
44. `Type::size` measures the type of every field anew, with all it contains (type.rs:404-433): the size of a struct with two fields of
    a struct type with two fields …, `n` deep, takes 2ⁿ steps, and loading asks for the sizes of all fields (type.rs:163). A file
    of 2500 bytes keeps the loader busy for years: C104.
45. Counts in the file are used for `Vec::with_capacity` before anything is read (tables/mod.rs:367, method_signature.rs:33,
    property_signature.rs:26, method_spec.rs:21, array_shape.rs:17,25, element_type.rs:77, method_body.rs:88,136,187, type.rs:139,185): a table
    stream of 28 bytes requests memory for 2³²−1 rows, and the process may be aborted instead of reporting an error: C105.
46. Types that instructions need are looked up by name when they run, with `unwrap` (gc/mod.rs:79-97, type.rs:398-429): a method
    that loads a string panics as long as no loaded library defines `System.String`, and works after that: C106.
47. `ClrLite::execute` does not check the arguments (vm/mod.rs:130-131): a missing one is an out-of-bounds panic at the first use. The
    array of the host is the argument area of the executed method, so that `starg` in it changes the host's values: C107.
48. The tables ClassLayout and FieldLayout are read and never used (nothing in `vm/` refers to them): all types are packed without
    gaps, the members of a union lie one after the other, and a declared size has no effect (type.rs:144-163): C109.
49. Nothing is ever collected (`GcHeap::collect` is empty, gc/mod.rs:99): the memory for objects only grows while a method runs (C110). In
    release builds it can shrink by mistake: `newarr` with a negative length computes a size that wraps around, and `resize` cuts off the
    end of the object made before, then the header of the array is written outside the vector.
50. A file of one value type with a field of its own type (`struct S { S f; }`, which compilers reject) is never refused: `Type::size` calls
    itself without end while the file is loaded (type.rs:404-449, 152-164), until the native stack overflows: C42_refuted_size.
51. `PeSectionHeader::name` unwraps `from_utf8`: a section whose name is not UTF-8 makes it panic although the file parsed. NULs are removed
    at the front as well as at the end, so `\0t` and `t` give the same name (`C112_not_text_refuted`).
52. `CopyFromBytes` is implemented for `bool` and `char`, so the safe call `read::<bool>()` on the byte 2, or on such a boolean constant of a
    file, is undefined behaviour; so is `read::<char>()` on a surrogate (`C113_not_a_value_refuted`).
53. The headers of a file are read in one piece, the `u64`s of the PE32+ header and of the table stream at multiples of eight, though the
    format places streams at multiples of four: some files cannot be read at any address without undefined behaviour
    (`C101_files_refuted`), among them every file of the usual format with a class (`C101_files_types`).
54. In a small exception clause the offset of the handler is read as a `u16` five bytes behind another `u16`: no method body with a
    small clause can be loaded at any address without undefined behaviour (`C101_bodies_never`). The same holds for a heap of user
    strings with a string of 64 units or more behind shorter ones, one of which is always misaligned (`C101_strings_never`).
55. Calls of a program nest calls of the interpreter, without a limit (`TODO` at stack_frame.rs:149): `static void Down() { Down(); }` uses
    the host's stack up, which aborts the host instead of an error for the program (`C114_refuted`).
56. Numbers of two and four bytes in signatures are read as `u16` and `u32` where they are (blob_reader.rs:51-54): of two fields of classes
    in rows from 32 on, with signatures one behind the other, one is misaligned wherever the heap is (`C101_signatures_never`).
57. Because `ldarg`/`starg` swallow the two bytes after their index, a method of `ldarg 0; ret` followed by unreachable bytes can run for ever:
    the `ret` is taken for a part of the index (stack_frame.rs, as in 19): C116.
58. Exception clauses are decoded but nothing looks at them: a division by zero in a protected region panics, and `leave` is not
    implemented, so that a region cannot be left without a failure either: C119.
59. Storing into a variable does not look at its type, so that variables of type `sbyte` or `short` hold any 32-bit value (stack_frame.rs:110-121),
    where the standard keeps the lower bits (III.3.63): C120.
60. `ldstr` makes a new string whenever it is executed (stack_frame.rs:414-425), so that references to equal literals differ, where the
    standard guarantees the same object (III.4.16): C121.

Observed while modelling, not the subject of a property: only `ldelem.i4`/`stelem.i4` exist.

## 3. Properties

What is modelled and how it is proved. (`properties.jsonl` has the statements, `MANIFEST.json` the status and theorem
names.) "Ref." marks properties with a refuted full statement.

| id | model | specification | proof |
|---|---|---|---|
| C01–C04 (ref. C03) | `BinaryReader`, `Utf8` | slices of the byte list, `Spec/Utf8` | case analysis on bounds; induction over counts; UTF-8 encode/decode by induction over characters |
| C05–C08 (ref. C08) | `Pe` | encoder `Spec/PeFormat` | totality by following the monad; round trip by reader lemmas at `prefix ++ enc ++ rest` |
| C09, C10 (ref. C10) | `Metadata` | encoder `Spec/MetadataRoot` | induction over the stream list; concrete image as counterexample; memory safety by following the monad (`Lemmas/Safe`) |
| C11, C39, C40 (ref. C11, C40) | `Loader`: member lists, token lookup | `Spec/Partition`, `Spec/References`: which row belongs to which type | exact description of what `loadSelf` registers (`Lemmas/Loading`, `Lemmas/LoadSelf`), by induction over type rows and member rows |
| C12 | `StringsHeap` with explicit cache | `Spec/Heaps` | invariant: every cache entry equals the uncached answer |
| C13, C14, C15 | `UserString`, `Metadata`, `Token` | `Spec/Heaps`, arithmetic | slice lemmas, bit arithmetic |
| C16–C24 (ref. C18, C21, C23) | `Blob` | ECMA encoders `Spec/Signature` | induction over lists and element-type trees; totality by well-founded recursion on remaining bytes |
| C25–C29, C67 (ref. C25–C29) | `Tables`, `TableRows` | schema of all 38 tables `Spec/TableSchema`, `Spec/TableColumns` | generic column round trip, then rows, then tables by induction |
| C30 | `Attributes` | `Spec/Attributes` | bit lemmas, finite tables by kernel evaluation |
| C31–C33 | `Loader.loadBody` | encoder `Spec/MethodBody` | reader lemmas, induction over clauses |
| C34–C36 (ref. C36) | `World`, `Loader` | `Spec/Registry`: all registries a program can bring about (`Reached`), what can happen later (`Later`) | invariant `Inv` over primitive updates `Upd`; every loader function performs only such updates (`Lemmas/Run`) |
| C37 (ref.) | `World.instanceOf` | `Ancestor`, `Implements` | induction over the base chain; for loaded registries with C81 (`Props/Ends`) |
| C38 (ref.) | `World.typeSize`, `allFields`, `Loader.resolveFields` | `Spec/Layout`: sizes from ECMA-335, `WellLaid` | invariant `Settled` over all `Reached` registries: sizes depend only on earlier types, types are resolved in order (`Lemmas/Layout`) |
| C41, C42, C66 (ref.) | `Loader.loadData` with depth fuel | reference graphs, ranks | induction on the rank; divergence on a cycle for every depth; `Touch`: which records a load may change |
| C43 (ref.) | `Loader.internalCallName` | `Spec/Names` | injectivity of separated concatenation |
| C44–C47 (ref. C45, C46) | `Heap` | `Spec/Objects`: byte ranges, separate copies | invariant over allocation sequences; slice update lemmas; `Lemmas/Access` |
| C48–C51, C70 (ref. C50, C70) | `Value`, `Interp.exec` | `Spec/Instructions` over integers | `BitVec.toInt`/`toNat` arithmetic, then the effect on every machine state |
| C52, C53, C60, C65 (ref. C53, C60, C65) | `Interp.fetchOp`, `exec` | instruction encodings of ECMA-335 III `Spec/Instructions` | every row of the encoding table is checked against `exec` (`Lemmas/Decode`), lifted to all states; `ClosedCode` invariant for C65 |
| C54–C57, C62, C63, C69, C71 (ref. except C55, C62) | `Interp`: frames, `callMethod`, `invoke` | `Keeps`, slots as separate variables | induction on fuel with a frame invariant (`Lemmas/Frames`, `Lemmas/Calls`, `Lemmas/Vars`) |
| C58, C72 (ref.) | `Interp` on compiled code | `Spec/Lang`: expressions and structured programs with a big-step meaning, and a compiler | induction over expressions, statements and loop iterations (`Lemmas/Lang`, `Lemmas/Fuel`) |
| C59 (ref.) | `newobj` | new object = fresh range, constructor run on it | from C44 and C54 |
| C61 | output in `Machine` | `Spec/Output`: the writes an execution performs | induction on fuel (`Lemmas/Output`) |
| C64 (ref.) | `Interp` | `Spec/Depths`: ECMA-335 stack transitions, consistent depth assignment (`Balanced`) | every instruction touches only what its transition row says (`Framed`, `Lemmas/Framed`); induction on fuel over calls and loops (`Lemmas/Depths`) |
| C73 (ref.) | `Interp`, `Machine`, `Heap` | `Spec/Typing`: types of stacks, locals and arguments, typing rules per instruction, `Typed` code | type soundness: the heap is a list of well-formed objects (`Lemmas/Blocks`, `Lemmas/Alloc`), every instruction preserves types (`Lemmas/Plain`, `Lemmas/Typing`), induction on fuel over calls and loops (`Lemmas/Sound`) |
| C74, C75 (ref.) | `Array` | `Spec/Arrays`: bytes of an array, names of Rust's types | slice lemmas over `Heap.Has` (`Lemmas/Arrays`), C44 for the allocations |
| C76 | `Loader.newRuntime`, `World.primitives` | `RuntimeOk` | invariant `Primitives.Named` over all `Reached` registries |
| C77 (ref.) | `Files` | first directory that has the file (`FirstPick`) | induction over the directories; characters of paths |
| C78 (ref.) | `Loader`: `resolveBase`, `resolveKind`, `loadInterface` | `Spec/Kinds`: `declaredKind`, names the rows give | `SelfIs` (`Lemmas/LoadSelf`) extended by base, kind and interfaces |
| C79, C80 (ref.) | `World`: `isReferenceType`, `allFields`, `allMethods` | `Spec/Kinds`: `IsValueType`, `BaseChain`, `Inherits` | induction over the base chain; induction over a rank; for loaded registries with C81 (`Props/Ends`) |
| C81 (ref.) | `loadData`, `newRuntime`, `loadAssembly`, `typeSize` | `Spec/Returned`: `Survived`, `ChainEnds` | invariant over the history: what `size` measured ends, and every type whose base is set was measured |
| C82 | `Display`: `showHex`, `showHex10`, `Token.display` | `Spec/Display`: `Writes` | induction on the number; splitting the digits |
| C83 (ref.) | `Display`: `displayMethod`, `displayField`, `displayParam` | `Spec/Display`: `signatureText`, `Plain`, `NamesOf` | registry invariant; first occurrence of a separator is unique |
| C84 (ref.) | `Interp`: `step`, `loop`, `callMethod`, `invoke`, `hostExecute` | `Spec/Abstract`: machine with separate activations (`Instr.effect`, `Runs`) | refinement: a simulation relation kept by every instruction (C48–C52, C57) and by calls (C54, C56), induction on the run |
| C85 (ref.) | `Loader.loadData`, `loadSelf` and all they call | `Spec/Valid`: `Decls`, `WellFormed`, `FiniteSizes` after ECMA-335 II.22, II.23.2, II.25.4 | progress: invariant `Mid` over half-loaded registries (`Lemmas/Mid`), bounds for chains and sizes that hold all the while (`Lemmas/MidSize`), every loader function succeeds and keeps it (`Lemmas/MidLoad`, `MidTypes`, `MidSelf`) |
| C86 (ref.) | `step`, `Value.eq`, `Value.partialCmp`, `Value.isNullOrZero` | `Spec/Floats`: order of operands as a relation, unordered included | case analysis; the hardware operations are a parameter, of which only that equality agrees with the order is used |
| C87 (ref.) | `step`, `Value.add` … `Value.neg` | `Spec/Floats`: `FloatOp` | case analysis; the hardware operations are a parameter |
| C88 (ref.) | `Loader.loadData`, `Interp.hostExecute` and all they call | `Spec/Whole`: `intProg`, the integer program in the tables and bodies of a file; `Spec/Abstract`, `Spec/Valid` | C85 with the loaded methods tracked by the invariant (`MethodIs`), which makes them `LinkedTo` the program, then C84; more fuel does not change what loading does (`Lemmas/LoadFuel`) |
| C89 (ref.) | `Interp`, `Heap`, `Machine`: numbers of all four types, allocation, fields, elements, literals, `newobj`, `Console.Write`, `hostExecute` | `Spec/Objective`: machine with a store of numbered objects without addresses, and the text written; the floating-point operations are a parameter (`LawfulEq`: equality agrees with ordering), shifts of 64-bit integers are left open (C70) | refinement: the heap bytes represent the store (`Lemmas/Cells`), every operation on numbers (`Lemmas/Numbers`), every instruction (`Lemmas/Follow`), call, constructor and write (`Lemmas/Linked`) keeps the relation, induction on the run |
| C90 (ref.) | all of loading and running: `loadData`, `resolveMethod/Field/Type`, `hostExecute` | `Spec/Program`: procedures, classes, fields and literals of the abstract machine of C89 read off the rows and heaps of the file | C85 gives the loaded registry; `Lemmas/Program`: its method, field and type records are those of the rows, fields of a class and its bases do not overlap (`class_laid`); `Lemmas/Silent`: loading writes nothing; then C89 |
| C91 (ref.) | `readMetadata` and everything below it | `FileParts`: sections, CLI header, heaps, rows as written by an assembler; `ReadAs`: what each query must answer | C09, C25–C28, C12–C15, C30–C33 put together; refuted by a custom attribute on a security declaration |
| C92 (ref.) | `Model/Main`: `mainProgram` | the abstract machine of C89 on the procedures of the file (`Spec/Program`), started at the entry point | C90, `Lemmas/Main` (loading writes nothing), fuel monotonicity of `newRuntime`; refuted by a file whose entry point is row 2 |
| C93 (ref.) | `loadData`, `newRuntime`, `loadAssembly`, `typeSize` | `Spec/Contains`: `Part`, `Contained`, `BasesFirst` | invariant over the history: every type has finitely many types inside it (accessibility of `Part`), because each base and each field type was measured when it was added (`Lemmas/Contains`) |
| C94 | the whole model | `Spec/Builds`: `HostCall`, `session` | for every function of the model: unless the run with checks panics, the run without is the same; type-class instances compose these, induction over loops and fuel (`Lemmas/Builds`) |
| C95 | `loadData`, `loadAssembly`, `newRuntime`, `arrayType`, `hostExecute` | `Spec/Kept`: `Onward`; prefixes of lists | frame argument: loaders update only type records they have added (`Lemmas/Kept`: `Spares`), the interpreter only asks for array types and writes (`Lemmas/Onward`) |
| C96 (ref.) | as C90, `hostExecute` | `Spec/Kept`: `Onward`, `Spec/Program` | sizes and linking survive the growth of the registry (`Lemmas/Wider`), then C89 |
| C97 | `Model/Borrow`: the borrows of every function of `vm/`, with arbitrary data | `Spec/Borrow`: guards a host can hold | a guard-set argument per function, by recursion on the fuel; false if the host holds a view of the registry (finding 39) |
| C98 | the registry as in C31, with `Type::assembly` (`Spec/Links`) | links from types and assemblies, as conditions on the registry | invariant over all histories: links of each assembly, distinct numbers, owner of each type; false for types left by a failed load (finding 40) |
| C99 | the operators of `Value` on every kind of operand (`Model/Value`) | numbers, ranges and operators of the eight integer types as operations on integers (`Spec/Operators`) | bit patterns are numbers of a type one to one; each operator by the lemma for its width and sign |
| C100 (ref.) | `Metadata.readMetadata`, `Loader.loadData`, `Interp.hostExecute` and all they call | `Spec/Source`: a language with procedures, its meaning, a compiler and an assembler to bytes; `Spec/Provided`: what must be loaded already | compiler correctness by induction on statements and on the nesting of calls (`Lemmas/SourceRun`); the assembler's file is one written from parts (`Lemmas/SourceFile`, `Lemmas/SourceTables`), so C91 reads it back, and it is well-formed (`Lemmas/SourceLoad`), so C88 applies |
| C101 (ref.) | `Model/Align`: the functions of the interpreter that make typed accesses, and the reading of table rows, with addresses checked; the addresses of buffers are a parameter | `Spec/Align`: code whose operands are aligned | every checked function refines the unchecked one (type classes over the whole interpreter, `Lemmas/Align`); equality by lock-step induction for aligned code; refutations for every choice of addresses; for files `Spec/Columns`, and an exact condition by composing checked reads (`Checked`, `Lemmas/AlignTables`); for method bodies and user strings `Spec/Places`, with the encodings of C31 to C33 and C13; for signatures `Spec/SigPlaces`, by induction on the types of C19 (`ReadsIf`, `Lemmas/AlignSigs`) |
| C102 (ref.) | `Interp.callNative`, `invoke`, `callMethod`, `hostExecute` | `Spec/Natives`: what the three native methods do by the documentation of the class library | case analysis on the implementation of the method, with the lemma on calls (`Lemmas/Calls`) and the theorem on writes of C61 |
| C103 (ref.) | `Model/Ownership`: the strong references between the reference-counted objects, `dropAll` (`Drop for Rc`), the weak links | `Spec/Ownership`: ownership link by link, what is in use, which types are circular, histories of taking and dropping handles | invariant: every count is the number of references from handles and living objects (`Lemmas/Counting`, for any finite graph); a backward walk among objects that are alive but not in use runs into a circle (pigeonhole); circles of ownership are circles of types (`Lemmas/Ownership`) |
| C104 (ref.) | `Model/Cost`: `instance_of`, `is_reference_type`, `size`, `all_fields` with a count of visits | `Spec/Cost`: the number of items loaded, nested structs | erasure of the counts; base chains have no repetitions, so their shares add up to at most everything; a file for the refutation, loaded by C85 rather than by evaluation (`Lemmas/Nest`) |
| C105 (ref.) | `Model/Room`, `Model/LoadRoom`: the readers of tables and signatures and the loader with the number of elements requested by `with_capacity` and `reserve` | the length of the bytes read; the square of the size of a loaded file | erasure of the requests (`CountsAs`); every row, element, local variable and clause takes at least a byte, so a successful loop pays for its request (`RoomStep`, `MR.Costs`); the runs of fields and methods of a loaded file telescope (`ownedRun_ends`) |
| C106 (ref.) | `hostExecute` on two registries | the two executions are compared as they are | `Carries` (Lemmas/Carry): each function of the interpreter, run in a registry that extends another (`Includes`), does what it does in the smaller one unless that panics or makes a type |
| C107 (ref.) | `hostExecute`, `storeTo`, `callMethod` | `Spec/Args`: the bytes of the instructions that store into an argument | `Hosted` (Lemmas/Hosted): each function of the interpreter leaves the host's values alone except `starg` in the outermost frame; surplus: `Carries` with arguments appended (Lemmas/Carry) |
| C108 | `parsePe`, `resolveRva`, `readMetadata`, `loadBody`, `loadData`, `mainProgram` | `Spec/Unread`: two PE files that agree from given bytes on, with section tables that say so | `Metadata.from` (Lemmas/Unread): only `loadBody` looks at the file of the metadata; addresses resolve to the same place relative to the contents; bytes at the end: every reader that succeeds gives the same on longer data |
| C109 (ref.) | `resolveFields`, `loadFields`, `typeSize` | `Spec/Declared`: sequential placement with a packing size, explicit offsets | from the invariant `Settled` of C38 and the description of what `loadSelf` registers (C39); concrete file with four types as counterexample |
| C110 (ref.) | `Heap.bump`, `exec`, `loop`, `invoke`, `hostExecute` | `Spec/Garbage`: code without the three creating opcodes; code that drops every object at once | class `Takes` with an instance per function of the interpreter: memory stays (or, with checks, never shrinks); induction over the rounds of a concrete loop for the counterexample |
| C111, C42 (ref. sizes) | `typeSize`, `instanceOf`, `allFields`, `allMethods`, `loadAssembly`, `hostExecute` | none beyond the model: depth is the fuel | with each further level there are answers for more types or for no more from then on (`Res.settles`), so as many levels as types settle it; relation between runs with different fuel through loader and interpreter (`M.Enough`, `Suffices`) |
| C112 | `parsePe`, `PeSection.nameText` | `Spec/PeFormat`, `Spec/Utf8`, `Spec.Bare` | every text is NULs, a bare middle and NULs; uniqueness by the UTF-8 round trip |
| C113 | `Reader.peekAs`, `readAs`, `blobReadAs`, `constantAs` | `Spec.Stands`: two's complement by congruence, not by the decoder | the decoder accepts exactly what stands (`decode_iff`), then C17 for blobs |
| C114 (ref.) | `Model/Nesting`: `invokeD`, `callMethodD`, `loopD`, `hostExecuteD`, the interpreter with the greatest number of nested calls | `Spec/Nesting.CallsIn`: call instructions in the bytes of a method; reachability from Mathlib | the count is forgotten by induction on the fuel; the active frames form a chain of `CallsIn` (links of C98, registry growth); a chain without repetition is no longer than the list of methods; a loaded file whose method calls itself |
| C115 (part., ref.) | `Model/Interp` as it is | `Spec/Spelling`: programs as lists of lines without addresses, the encodings of a line, `nop`s between lines, `withMethods` for whole programs | `Lemmas/Blind`: every primitive of the interpreter is blind to method bodies; `Lemmas/Spelling`: lock-step simulation by lines, `nop`s skipped on either side; by induction on the fuel both executions end in the same way if one of them ends |
| C116 (part., ref.) | `Model/Interp` as it is | `Spec/Straight`: where control can pass by the standard's encodings, code without loops, programs without recursion | `Lemmas/Answers`: every primitive of the interpreter answers without fuel; `Lemmas/Halts`: each instruction but `ldarg`/`starg` passes control as the standard says, the addresses visited are distinct, the active methods are distinct, so that fuel suffices by the pigeonhole principle |
| C117 (part., ref.) | `Model/Interp` as it is | `Spec/Unreached`: codes that are the same where control comes to (`Visits` of `Spec/Straight`) | `Lemmas/Unreached`: lock-step at the same addresses with the machinery of C115; control stays where the codes agree by C116's lemma on where instructions lead |
| C118 | `Model/Interp` as it is | `Spec/Renamed`: methods that differ in names only | `Lemmas/Renamed`: lock-step at the same addresses with the machinery of C115 |
| C119 (ref.) | `Model/Interp` as it is | `Spec/Handlers`: a method that divides in a protected region, and its result; methods that differ in their handlers | lock-step as for C118; `decide` for the refutation |
| C120 (ref.) | `Model/Interp` as it is | `Spec/Narrow`: what variables of small types hold; methods that differ in what they declare | lock-step as for C118; evaluation of one method for all values |
| C121 (part., ref.) | `Model/Interp` as it is | `LiteralAt`: an instruction that loads a literal, and its text | one instruction after the other, with what C44 says of allocations |
| C122 (ref.) | `Model/Interp` as it is | `Spec/Harmless`: methods that come to no instruction for objects, by `Visits` and `MayCall` of `Spec/Straight` | `Lemmas/Harmless`: what every instruction leaves alone; induction on the execution; refuted for `ldarg` with an index of two bytes, where bytes after the `ret` are executed and make a string |
| C68 | `Loader.typeFor` | `Spec/References` | induction over element types |

## 4. Testing the theorems

`seeded/LOG.jsonl` records wrong versions of the model (made in a scratch copy) and which theorems reject them. When a
wrong version slipped through although it made a claim false, the theorem was tightened; the log says how.
