# Formal model of clReflect in Lean 4

Layout: `lean/Verif/Model/*` holds definitions that follow the C++ function by function (each cites
file and lines), `lean/Verif/Proofs/*` holds helper lemmas, `lean/Verif/Props/*` holds the property
theorems with their specifications and the examples that show their hypotheses can be met.

## Trusted base

* Lean 4.33.0's kernel. No axioms are added. The axioms a theorem depends on are listed in `AXIOMS.md`
  (written by `tools/axioms.py` with `#print axioms`): each theorem uses a subset of `propext`,
  `Classical.choice` and `Quot.sound`, some use none. Closed computations use `decide` or
  `decide +kernel`; the kernel evaluates them. `native_decide` and `bv_decide` are not used.
* The reading of the C++ text in /repo. The code is not compiled or run. Every definition under
  `Verif/Model` cites the lines it models, and says where it simplifies. `tools/coverage.py` lists the
  lines that are cited, per file.
* The specifications the theorems are stated with: `Verif/Model/*Spec.lean`, `JSONGrammar.lean`, and the
  definitions next to the theorems in `Verif/Props`.
* Undefined behaviour and failed assertions are distinct outcomes of the model (`Res.ub`, `Res.trap`), never
  totalised away.

### What is modelled

| file | modelled | not modelled |
|---|---|---|
| `inc/clcpp/clcpp.h`, `src/clReflectCpp/clcpp.cpp` | name hash (murmur), `FindPrimitive`, `FindOverloadedPrimitive`, `CArray`, enum value names, inheritance queries, `Database::Load` with relocation and rebasing | constructors that only set members to zero, module handles, the debugger break in `Assert`, `GetTypeID` macros |
| `inc/clcpp/FunctionCall.h` | the checks of `CallFunction` | what the called function does |
| `inc/clcpp/Containers.h`, `src/clReflectCpp/Containers.cpp` | the iterator contract, C array iterators, storage of iterators | user written containers |
| `src/clReflectCore/Database.*` | names, all primitive tables, `AddPrimitive`, lookups, inheritances, container infos, unique ids | - |
| `src/clReflectCore/DatabaseTextSerialiser.*` | writer and reader of all tables, detection | printing and scanning of floats (`%f`, a parameter) |
| `src/clReflectCore/DatabaseBinarySerialiser.*`, `DatabaseMetadata.*` | writer and reader of all tables over the packed layouts | - |
| `src/clReflectCore/FileUtils.*`, `Arguments.h` | all | opening and closing of files |
| `src/clReflectCore/Logging.*` | all | `printf` formats |
| `src/clReflectMerge/DatabaseMerge.*` | all | - |
| `src/clReflectMerge/CodeGen.*` | all: namespaces, forward declarations, `GetType` and its likes, file writing with its hash check; `Main.cpp` | - |
| `src/clReflectExport/CppExport.*` | names, copying, parenting, linking, containers, bases, constructors, sorting, flags, inheritance, verification, isolation, layouts and pointer schemas of `SaveCppExport`, the log of the exported database as text | - |
| `src/clReflectExport/PtrRelocator.*`, `StackAllocator.h` | all | - |
| `src/clReflectExport/MapFileParser.*` | all | demanglers (parameters), logging |
| `src/clReflectScan/AttributeParser.*` | all | warnings |
| `src/clReflectScan/ReflectionSpecs.*`, `Main.cpp` | all: full and partial specs, container specs, the program around the scan | clang's command line and parsing |
| `src/clReflectScan/ASTConsumer.*` | which declarations are reflected, attributes, names and parents; types, template instances, functions, members, enums | clang itself, its layout of classes and its printing of type names |
| `src/clReflectUtil/JSONLexer.cpp`, `SerialiseJSON.cpp` | all; the functions of classes are parameters (C101, C102) | `strtod`, `%f` (parameters) |
| `src/clReflectUtil/SerialiseVersionedBinary.cpp` | all; custom load and save functions as parameters (C100) | what such functions do; such functions in nested classes |
| `src/clReflectUtil/Serialise.cpp`, `inc/clutl/Serialise.h` | write and read buffers | - |
| `src/clReflectUtil/Objects.cpp` | object groups, lookup by id and path, iteration, creation and destruction of objects | users' constructors and destructors beyond those of `Object` and `ObjectGroup` |
| `src/clReflectUtil/FieldVisitor.cpp` | all | - |
| `src/clReflectUtil/SerialiseFunction.cpp` | all: the parameter cache, arguments from JSON, calls | what the called function does |
| `src/clReflectUtil/Module.cpp` | all, over counted references to libraries | operating system modules |

Machine: two's complement, little endian, 64-bit pointers, `int` of 32 bits, `char` signed, unless a model says
otherwise. Memory exhaustion, concurrency and file system failures are not modelled (the library has no
threads; interrupted writes are part of C51).

### Where the code disagrees with its properties

Each is a theorem (name in brackets) or follows from the cited lines.

* Text files: `snprintf` with size 10 drops the tenth digit of numbers on compilers other than Microsoft's
  (`C10_decimal_large_wrong`), so offsets of -1 and large sizes change; tabs, line ends and empty texts are lost or
  undefined (`C11_*`); files without the header are accepted (`C12_headerless_accepted`).
* Binary files: attributes are written at the wrong offsets (`C13_attributes_undefined`), equal texts share a slot
  (`C13_shared_text_wrong`), long texts are cut (`C13_long_text_cut`).
* Loading: a pointer to the first byte of the image becomes null (`C14_start_pointer_lost`); crafted relocations
  write outside (`C15_crafted_file_outside`).
* Export: an address whose low half is a name's hash is taken for it (`C17_alias_negation`); a field of an unknown
  parent is undefined (`C17_orphan_field_ub`); attributes of overloads go to the first (`C17_overload_attributes`);
  transience is not inherited (`C19_transient_not_inherited`); cyclic inheritance never ends (`C19_cyclic_never_ends`);
  functions of the global namespace keep unresolved types (`C20_global_function_negation`).
* Allocation: the 32-bit offset wraps (`C23_wrapping_request_overlaps`); write buffers of capacity 0 or 1 never grow
  (`C25_tiny_capacity_never_returns`); seeking before the start reads outside (`C26_seek_underflow_reads_outside`).
* JSON: an exponent at the end reads a byte outside (`C27_unfinished_exponent_negation`); large negative integers
  overflow a buffer (`C28_signed_buffer_negation`); overlapping flags (`C30_overlapping_flags_negation`); unclosed or
  trailing text is accepted (`C33_*`); fields at equal offsets are dropped (`C34_equal_offsets_negation`); types are
  dispatched by hash modulo 47 without a check (`C35_other_names_negation`); unmappable pointers break arrays
  (`C36_negation`). An object given for a vector dereferences null; an object given for a pointer is read over the
  pointer; fields of a second base are read at the wrong address; enums of other sizes than four are read as `int`.
  `load_json` functions are not called for the object itself, are called with the opening bracket of an array or object and with
  the address of pointers (`C101_top_negation`, `C101_array_negation`, `C101_object_negation`, `C101_pointer_negation`);
  `post_load` functions are called after errors but not for empty objects or bases (`C101_error_negation`,
  `C101_empty_negation`, `C101_base_negation`).
  An object with `save_json` and `load_json` functions is saved to a text that `LoadJSON` refuses (`C102_top_negation`);
  string tokens are not escaped, integer tokens of -10^18 and less overflow the buffer of the writer
  (`C102_quote_negation`, `C102_integer_negation`); the functions of base types are not called (`C102_base_negation`).
* Versioned binary: pointers, unnamed enum values, second bases, class keys (`C37_*`), changed element types
  (`C38_*`), negative sizes loop (`C39_*`).
* Objects: equal ids leave dangling entries (`C42_duplicate_ids_leave_dangling`); paths of three ids fail
  (`C43_three_ids_fail`).
* Scanning: a trailing comma reads past the tokens (`C47_trailing_comma_negation`); negative numbers drop the list, `0X`
  gives 0, `1e5` gives 1 (`C46_*`); `noreflect` on a forward declaration is ignored; with a spec the first attribute is
  dropped (`C49_*`).
* Code generation: lines are cut at 511 characters; a truncated file is kept (`C50_*`, `C51_*`).
* Function calls: 16 parameters can be built but not destroyed (`C61_sixteen_negation`); storage is unaligned
  (`C54_unaligned_negation`).
* Map files: see `C62_*_false` to `C65_*_false`.
* Types in the scanner (C66–C70): a class template whose base has the instance as an argument makes the scan run forever; instances with
  four arguments are refused although templates with four parameters are recorded; `A<const int>` and `A<int>` share one name and entry,
  and a name may be added twice; an instance refused for one base keeps the relations to its other bases; a typedef of an array is not
  recorded; functions returning references are recorded as returning values, those returning `void*` as returning nothing; fields of
  anonymous structs have their offset in that struct; negative enum constants of types smaller than 32 bits and large 64-bit ones are
  recorded with other values; constants of scoped enums are named as if they were not scoped. See `C66_*_false` to `C70_*_false`.
* Generated types: lines are cut at 511 characters, so long names break the file (`C71_long_name_negation`); a database without types
  gives an array of no elements (`C71_no_types_negation`).
* clmerge: an output that can not be opened is written to (`C72_unwritable_output_undefined`); most files are taken for empty databases
  (`C72_any_file_false`); files of fewer than 8 bytes are undefined; inputs in front of an option are dropped
  (`C72_option_behind_input_false`).
* clexport: a file that can not be opened for writing is not reported, the exit code is 0 (`C73_unwritable_output_false`).
* cldb: two inheritances whose names and bases concatenate to the same text replace each other (`C74_every_inheritance_kept_false`); a container without a name is stored, a primitive without one is asserted against (`C74_unnamed_container_false`).
* clcpp: destroying a ReadIterator that was never initialised, or found no container interface or no constructor, is undefined, because `m_Initialised` is neither set nor tested (`C75_unused_reader_undefined_false`); initialising an iterator twice leaks or is undefined (`C75_second_use_false`); `ReadIterator::IsInitialised` is declared but not defined.
* Function arguments from JSON: neither commas nor the closing bracket are looked at and further values are ignored (`C76_separators_unchecked_false`); a string for a parameter that is not an enum, `const char*` among them, succeeds and leaves the object as it was (`C76_string_ignored_false`).
* Logs: setting a file drops the streams set before for the same name and tag, as the copy constructor of file streams loses the link (`C77_file_drops_stdout_false`), so that clscan with a spec log prints no more warnings; a file set for several tags is opened once for each and the tags write over each other (`C77_tags_overwrite_false`); texts are cut at 511 bytes (`C77_long_text_false`); 128 levels of indentation are undefined (`C77_deep_indent_undefined`); names are compared by address (`C77_name_by_address_false`).
* Modules: loading twice leaks the first library (`C78_loaded_twice_false`) and may keep its database (`C78_stale_database_false`); copies release twice (`C78_copied_undefined`); a null host is noticed after loading (`C78_null_host_asserts`).
* Calls: the template without arguments does not check the number of parameters (`C79_no_arguments_unchecked_false`); arguments by value are read in whole words (`C79_reads_behind_object_undefined`); a missing address is called (`C79_no_address_undefined`); a null `this` leaves the arguments on the stack (`C79_null_this_leaves_stack_false`); 16 parameters assert (`C79_sixteen_asserts`).
* clscan: a dash in the name of a container or its iterators loses the container (`C80_dash_false`), as does other key info (`C80_key_false`); an output name of three characters is written as text (`C81_three_characters_false`); an output that cannot be opened is written to (`C81_unwritable_undefined`); with several files each base type is recorded once per file (`C81_base_types_repeated_false`) and the specs of a file apply to those after it (`C81_specs_carry_over_false`).
* Runtime memory: every load that fails after the header leaves one to three blocks behind for good (`C82_failed_load_false`, `C82_count`); a query of a database that is not loaded is undefined (`C82_undefined_only`).
* Map files: those of newer GNU linkers are not read at all (`C83_new_linker_false`); a text of the program with the title of a table in it hides all later symbols of macOS' files (`C83_literal_false`); a last line without its end is not read (`C83_unfinished_line_false`).
* Images in memory: a single pointer still holding a hash stops the exporter at an assertion, no file is written (`C84_unresolved_stops`).
* Exported files: the tables follow the texts of names without alignment: a database with a one-letter name has its objects at odd addresses wherever the arena is, which C++ does not allow (`C85_alignment_false`).
* Exported files: an attribute naming a primitive, on something that is not reflected, keeps a hash where a pointer should be and the database can not be exported (`C85_unowned_attribute_false`, `C84_unresolved_stops`).
* Exported files: a database that needs more than five megabytes stops the exporter at an assertion (`C85_too_large_false`).
* Contents in memory: the two functions that construct and destroy objects of a template type are moved to that type, so their parent is not the scope they record (hypothesis of `parents` in `Contents`).
* Constructors: a method that has the name of a template type's constructor leaves the class it is a method of: its parent becomes the template type while the class still lists it (`C88_claimed_function`).
* Map files in the pipeline: what a map file says is a list of items (`Model/MapItemsSpec.lean`) that are read one after the other (`Proofs/MapItems.lean`); `C89_loaded_partial` follows them to memory. Parameters that GCC spells with `const` are not items that can be read (C62), so such lines are excluded unless nothing in the database has their name.
* Whole translation units: `Model/ScanUnit.lean` puts the walk of `Model/Scan.lean` (which declarations are reflected) and the tables of `Model/ScanTypes.lean` (what is recorded of them) together as in ASTConsumer.cpp. `C90_scanned_partial` reads the tables off the declarations; `C90_left_over_false` and `C90_order_false` are what the code does otherwise: base classes of a class that is left out stay behind, and whether a field is recorded can depend on the fields before it.
* From sources to memory: `Model/ScanStore.lean` gives the calls on the scanner's database that the tables of a walk stand for; the order of calls for different tables is left open (`Told`), one such order is `tell`. `C91_source_to_memory_partial` joins C90, C74, C81 and C86. It asks that the numbers can be stored: on systems other than Windows -1, the place of a return value, does not survive the text format (see C11), so that only functions that return nothing are covered there.
* The text log: `Model/ExportLog.lean` gives the calls of the logger (C77) that `WriteCppExportAsText` makes, from the same linked tables that are written to the file (C85). `Whole` (`Props/ExportLogSpec.lean`) says, in terms of the rows of the database alone, what a listing is. `%f` is a parameter (`Printer.float`), as is `std::sort`, which is only asked to sort. The log does not ask whether a member with parameters of unknown types is outside every namespace: such functions are listed (`<<UNRESOLVED TYPE>>`), unlike those in namespaces and classes. Names longer than what fits a line of 512 bytes are cut and nestings deeper than 128 write behind the indentation (C77); both are kept out by `Printable`.
* Hostile JSON: `Props/JSONInsideSpec.lean` says what it means that only the bytes of an object have changed (`OnlyIn`) and for which types that is claimed (`Room`: fields lie inside their class). No hypothesis is made on the text. The code breaks it in three ways: an object given for a pointer to a class is loaded over the pointer itself, because `ParserValue` does not pass the kind of the field to `ParserObject` (`C93_object_for_pointer_negation`); enums are written as four bytes whatever their size (`C93_small_enum_negation`); and a type whose name shares nine bits of its hash with that of a larger number is written as that number (`NumFits`, see C35).
* Hostile versioned binaries: the same `OnlyIn` for C94; `Sits` (`Props/VBinInsideSpec.lean`) is what is asked of types. No hypothesis is made on the bytes. A field that is a pointer is loaded over as if it were what it points to (`LoadClassField` does not look at the qualifiers), so that is false for pointers to larger types (`C94_pointer_negation`). Enums of less than four bytes end in `ub` in the model, of which C94 says nothing.
* Conversion of numbers in JSON: `Says` and `Converts` (`Props/JSONConvertSpec.lean`) say what a text's number is and what its bytes are in each native type, `Assigned` what a list of members does to memory. Decimals whose integer part is not a value of the field's type have no conversion in C++ (`C95_out_of_range_undefined`); integers beyond 64 bits, which the lexer takes modulo 2^64 (C60), and strings, arrays and objects as members are not in C95.
* Error positions in JSON: `Wrong` (`Props/JSONErrorSpec.lean`) says of each code what is wrong at the position, `newlines` and `Column` what line and column are. Columns count from 0 on the first line and from 1 on the others, and newlines in strings, which are not JSON, are not counted. `PopState` does not restore the line, so lines inside the text of a container are counted twice (`C96_container_negation`).
* Saved JSON: `Shows` (`Props/JSONTextSpec.lean`) relates an object in memory to its text, without the code's buffers, loops and sorting; digits are those of Lean's `Nat.toDigits`. The text of a decimal without EMIT_HEX_FLOATS is what the uninterpreted `format` gives.
* Saved versioned binary: `Encodes` (`Props/VBinBytesSpec.lean`) relates an object in memory to its bytes, without buffers and the later writing of sizes; `C98_same_bytes` shows that it determines them.
* Life of objects: memory is a map from the addresses of live objects to records, with the tables of `Model/ObjectGroup`; users' constructors and destructors do what those of `Object` and `ObjectGroup` do. The specification (`Props/ObjectLifeSpec.lean`) knows no tables. A class whose name has the hash of `clobj::ObjectGroup` is that class.
* Custom functions in the versioned binary: a saving function is a function from memory, object and field to the bytes it appends; a loading function is any loading action on object and field (`Custom`), looked up by the hash of the field's name, for the fields of the outermost class and its bases only. What is asked of a loading function is `Behaves`: it returns, leaves the reader somewhere in the buffer and changes nothing but its field and memory it has allocated.
* Functions in loading JSON: a `load_json` function is a function from token, address and memory to memory, a `post_load` function from address and memory to memory (`Hooks`, by the hash and size of the class). What a text does with them is the relation `Does`; values of types without functions do what loading them without functions does (`Alone`).
* Functions in saving JSON: a `save_json` function is a function from address and memory to a token, a `pre_save` function from address and memory to memory (`SaveHooks`). Saving hands memory on from member to member (`saveObjH`). `Lasting` are the tokens that survive being written and read, `Inverse` the pairs of functions that undo each other.
* Functions at any depth in the versioned binary: functions are given for a class and a field of it (`Functions`), and the saving and loading of C37 use them in every class (`saveObjectH`, `loadObjectH`). `Lasts` says of a value in memory that it survives, `Back` that it has come back; both follow the structure of the types. `Carries`, `Carried` and `Reach` are the same for types that have changed in between: what can be loaded, what has been, and the addresses it can change.

## Plan per property

| id | property | model and proof |
|---|---|---|
| C01 | Lookup by hash finds a primitive iff it is present | `Verif/Model/Search.lean`: the loop over signed ints, out-of-table reads are a distinct outcome. Loop invariant; `find` correct iff sorted. |
| C02 | Overload lookup returns exactly the overloads | Same module; range widening loops, proved equal to the set of indices with the hash. |
| C03 | Function unique ids separate overloads that differ in one parameter | `Verif/Model/Hash.lean`: murmur over `BitVec 32`. Injectivity of xorshift, multiplication by odd constants, rotation; fold over parameter list. |
| C04 | Name hashing is exact on short names and depends on nothing but the bytes | Same module over byte lists; single-block and tail injectivity. |
| C05 | Name interning behaves as a stable map from hash to text | `Verif/Model/Database.lean`: name map as ordered association list; invariant by induction over call histories. Collision assertion is a distinct outcome. |
| C06 | Merging never loses or changes what the destination already had | `Verif/Model/Merge.lean`: multimaps as key-sorted lists with append-at-end-of-range insertion; preservation lemmas per loop. |
| C07 | Merging brings in everything the source has | Same module; completeness and no-invention lemmas. |
| C08 | Merging is idempotent | Same module; second pass adds nothing. |
| C09 | A class definition wins over forward declarations whatever the merge order | Same module; fold over list of databases. |
| C10 | Hex and decimal text encodings of 32-bit values round-trip | `Verif/Model/FileUtils.lean`; arithmetic round-trip. Decimal writer truncates: negation with witness plus partial theorem below 10^9. |
| C11 | Text database round-trip | `Verif/Model/TextDB.lean`: writers, strtok tokeniser, line reader, table reader on byte lists. Round-trip for well-formed databases; negations for tab text, offset -1, missing last newline. |
| C12 | Text database detection accepts only text databases | Same module; negation (an unrelated file is accepted) plus positive half. |
| C13 | Binary database round-trip | `Verif/Model/BinaryDB.lean`: packed tables on byte lists. Round-trip for well-formed databases; negations for duplicate attribute text and long strings. |
| C14 | Exported pointers survive relocation to any load address | `Verif/Model/Reloc.lean`: memory as word array indexed by slot, relocations and schemas; round-trip theorem over two bases. |
| C15 | Loading a database file never writes outside the loaded image | Same module; rejection of bad headers; negation: crafted relocation writes outside. |
| C16 | Function addresses are rebased uniformly | `BitVec 64` arithmetic. |
| C17 | Export parents every primitive to its scope and nothing else | `Verif/Model/Export.lean`: Parent/ParentMap/BuildCArray as list functions. |
| C18 | Export sorts every searched table | Same module; sort is a parameterised stable/unstable sort specified by permutation + sortedness (std::sort trusted), composed with C01. |
| C19 | Transience and other flag attributes are encoded exactly and inherited | Same module; fold over attributes and recursive inheritance. |
| C20 | Export never leaves dangling type references | Same module; reverse-iteration removal loops; filter specification. Negation for global functions if confirmed. |
| C21 | Inheritance queries are exact | `Verif/Model/Types.lean`: tree of bases; reachability specification. |
| C22 | Enum value names are exact | Linear search model. |
| C23 | Bump allocations are disjoint and inside the arena | `Verif/Model/StackAlloc.lean`; invariant over request sequences. |
| C24 | Array removal removes one element and keeps the others | `Verif/Model/CArray.lean`; list specifications. |
| C25 | The write buffer behaves as an append-only byte string | `Verif/Model/WriteBuffer.lean`; refinement to a byte list; divergence for capacities 0 and 1 proved with a step relation. |
| C26 | The read buffer never reads outside its data | Same module; negation for backwards seeks. |
| C27 | The JSON lexer is memory safe and always terminates | `Verif/Model/JSONLexer.lean`: every read goes through a bounds-checked accessor with a distinct out-of-bounds outcome; totality by well-founded recursion. |
| C28 | JSON integers survive save and load | `Verif/Model/JSONSave.lean` formatting with explicit buffer index; round-trip with lexer. |
| C29 | Hex floats survive JSON save and load bit for bit | Same modules on 64-bit patterns (floating point conversion float<->double is a parameter). |
| C30 | JSON enums survive save and load | Same modules; negation for multi-bit constants. |
| C31 | JSON object round-trip | `Verif/Model/JSON.lean`: typed values; save to bytes, lex, parse. |
| C32 | JSON loading skips what it does not know | Same module; skipping lemma by induction on JSON values. |
| C33 | JSON loading rejects malformed text | Same module; negation: missing closing brace accepted. |
| C34 | Sorted field output writes each field once in offset order | `Verif/Model/FieldSort.lean`; selection loop; negation for equal offsets. |
| C35 | Builtin type dispatch is collision free | Full finite table, kernel computed, lifted to statements about all pairs; negation for unregistered names. |
| C36 | Saving a container of pointers saves every mappable element | Container save loop model; negation. |
| C37 | Versioned binary round-trip | `Verif/Model/VBin.lean`, specification in `VBinSpec.lean`; objects in memory to bytes and back; round-trip by induction on types. |
| C38 | Versioned binary tolerates changed classes | Same module; loading with a different class; negation for container value type change. |
| C39 | Versioned binary loading terminates on every input | Same module; negation: a negative chunk size loops for ever. |
| C40 | An object group is a map from unique id to object | `Verif/Model/ObjectGroup.lean`: open addressing table, refinement to a partial map. |
| C41 | Object group probing always terminates | Same module; invariant. |
| C42 | Removing an object leaves no trace of it, even with equal ids | Same module; negation with duplicates; positive theorem for distinct ids. |
| C43 | Relative paths resolve through nested groups | Same module; negation for paths of length 3. |
| C44 | Object iteration visits each object exactly once | `Verif/Model/ObjectIterator.lean`. |
| C45 | The field visitor visits each selected leaf exactly once | `Verif/Model/FieldVisitor.lean`, specification by paths in `Verif/Model/FieldVisitorSpec.lean`; mutual induction over the type; negations for second bases and references. |
| C46 | Attribute text is parsed exactly | `Verif/Model/AttributeParser.lean`, specification `Verif/Model/AttributeSpec.lean`; print/parse round trip by induction over the items; negations for 0X, signs, exponents, long texts. |
| C47 | Attribute parsing is memory safe | Same module; invariant of the parser loop, measure for the lexer; negation for every list followed by a comma, for characters outside ASCII, for large numbers. |
| C48 | Reflection opt-in and opt-out follow the scope rules | `Verif/Model/Scan.lean`: declaration trees with marks, the reflect flag as state; specification by the scopes around a declaration, `Verif/Model/ScanSpec.lean`; mutual induction over the tree; negation for forward declarations. |
| C49 | Attributes attached to a reflected symbol are all recorded | Same module; negation for spec + attribute. |
| C50 | Code generation forward-declares every type once, in its namespace | `Verif/Model/CodeGen.lean`; what a compiler reads of the generated text, `Verif/Model/CodeGenSpec.lean`; induction over the namespace tree; negations for long names and namespaces without parent. |
| C51 | Generated files are rewritten only when their contents change | Same module; file as an optional byte string. |
| C52 | String replacement helpers terminate and replace every occurrence | `Verif/Model/Strings.lean`. |
| C53 | Token extraction stays inside the destination buffer | Same module; explicit destination index; negation. |
| C54 | Parameter caches hold each parameter at a stable, disjoint place | `Verif/Model/ParamCache.lean` over the model of `WriteBuffer`; invariant of the loading loop. |
| C55 | Command-line options are found exactly | `Verif/Model/Arguments.lean`. |
| C56 | Text files are read line by line, exactly | `Verif/Model/FileUtils.lean`; fgets model with the 4096 byte buffer. |
| C57 | The order in which databases are merged does not change the symbols | `Verif/Model/Merge.lean`; fold over permuted lists. |
| C58 | Every pointer of the exported image is registered for relocation | `Verif/Model/Layout.lean`: LP64 layout of every exported structure computed from its members, the schemas of SaveCppExport over it; finite table decided, lifted to arrays of any length. |
| C60 | Integers in JSON text are read exactly | `Verif/Model/JSONLexer.lean`; induction over the digits. |
| C61 | Parameter objects are constructed and destroyed exactly once | `Verif/Model/ParamCache.lean` with a log of constructor and destructor calls; invariant over histories; negation for 16 parameters. |
| C62 | Addresses in a map file reach the functions they belong to | `Verif/Model/MapFile.lean`, `Verif/Model/MapFileSpec.lean` (a grammar of printed parameters); the tokenizer inverts the printer; refinement of the address assignment to 'first function with name and id'; negations for GCC's spelling of const references, `long long`, templates with operators or two arguments, Microsoft const methods and 64-bit addresses. |
| C63 | The function's name is found in its signature | `Verif/Model/MapFile.lean`; the part before the bracket is invariant under the replacements; one list of template arguments is replaced and put back; the loops' bound is proved irrelevant; negations for repeated template arguments and conversion operators. |
| C64 | Addresses of generated functions reach their types | `Verif/Model/MapFile.lean`; table lookups after an assignment; negation for template types. |
| C65 | Signatures are read within their buffers and to their end | `Verif/Model/MapFile.lean` with undefined behaviour at the end of each buffer; measure on the text; negations for long texts and empty files. |
| C66 | Types of fields and parameters are recorded as declared | `Verif/Model/ScanTypes.lean`: types as trees of clang's nodes, instances as an environment; specification by relations (`Means`, `Points`, `HasName`, `Declares`), soundness, determinism and completeness; negation for typedefs of arrays. |
| C67 | Template instances are recorded completely, once, and the scan of them ends | Recursion with fuel, `never` when it runs out; invariant `GoodDb`; ends and once under a rank and distinct names; negations for a base made of the instance itself, `const` arguments, four arguments, virtual bases. |
| C68 | Functions are recorded whole or not at all | Relation between declaration and entries (`FieldFor`, `ParamsFor`); negations for returned references and `void*`. |
| C69 | Fields of classes have their offset in the class | `HoldsAny` gives a field's offset in its struct and in the class; equal if anonymous structs are at the start; negation otherwise. |
| C70 | Enum constants have their values | Exact condition on width and value; negations for small negative values and scoped enums. |
| C71 | The generated GetType returns the type it is asked for | `Verif/Model/CodeGenTypes.lean` writes the lines, `CodeGenTypesSpec.lean` reads them as a compiler does (scopes, guards, statements, numbers); the specialisations read are the types of the database; negations for long names and no types. |
| C72 | clmerge writes the merge of all its inputs or changes nothing | `Verif/Model/Tools.lean`: `main` over a map of files; composes C11, C13, C07 and C55 with an invariant (the merge of storable databases is storable); negations for outputs that can not be written, files that are no databases, and options behind the inputs. |
| C73 | From the scanner's databases to lookups at runtime | `Verif/Model/ExportTool.lean`: clexport's `main`; composes C72, C07, C17, C18 and C01 over all inputs; the placement of tables, the map file and the log are parameters. |
| C74 | A database holds exactly what was put into it | `Verif/Model/BuildDB.lean`: histories of calls on one database, with arrays added as container infos and sizes written to classes through `GetFirstPrimitive`; `Verif/Model/BuildSpec.lean` reads the calls alone; invariant over all histories. `multimap::find` is taken to return the first of equal keys, as libstdc++ and libc++ do (the standard only says one of them). |
| C75 | Iterators visit C arrays exactly and own their implementation | `Verif/Model/Iterator.lean`: the array iterators with 64-bit positions, and the iterator objects with what is in their storage; the implementations of user containers are opaque classes with or without constructor and destructor. |
| C76 | Function arguments are loaded from a JSON list in call order | `Verif/Model/JSONParams.lean` over the JSON loader of C31: the sorting of the parameters and the loop over them; induction over the parameters with the round trip of each value. Pointers are not covered. |
| C77 | What is logged reaches every stream set for it | `Verif/Model/Logging.lean`: stream sets by the address of the name, files with handles that have their own positions; the specification is a function of the history (`LoggingSpec.lean`); invariant over all histories. |
| C78 | A module's library is loaded exactly as long as the module | `Verif/Model/Module.lean`: modules over reference counted libraries; the references are the number of modules that use a library, invariant over all proper histories. |
| C79 | Calling a reflected function hands over its arguments | `Verif/Model/Call.lean`: the loop that pushes parameters, with the instructions it is written in; memory with places where nothing is; induction over the parameters. |
| C80 | Container specs reach the database | `Verif/Model/ScanTool.lean`: splitting of annotations, the map of containers; specification over uses of the macros (`ScanToolSpec.lean`); the run is a history of calls of C74. |
| C81 | clscan writes one database for all its files in the format asked for | Same module, with the walk over a file as a parameter; case analysis, C72 and C74 for reading back. |
| C82 | Memory of loaded databases is kept while needed and given back once | `Verif/Model/Runtime.lean`: allocators that give fresh blocks, loading with its temporary arrays, databases over histories; invariant relating the blocks in use to what databases hold, refinement of `load` of C14 to C16. |
| C83 | Map files are read as a whole | `Verif/Model/MapFiles.lean`: macOS' files, the loop over Microsoft's, the choice of format; specification of the three formats as structured files with their text (`MapFilesSpec.lean`); reading the text is the fold over its symbols. |
| C84 | A loaded database is the exported one, byte for byte | `Verif/Model/Image.lean`: the values in memory of every struct of the exported database, the registration of pointers of `SaveCppExport`; `ImageRead.lean`: the runtime's look-ups on bytes; `ImageSpec.lean`: areas without overlaps, linked databases. C14 and C15 give every byte of the loaded image; the values of all cells follow. |
| C85 | The file clexport writes holds the database that was exported | `Verif/Model/ImagePlan.lean`: every allocation of `BuildCppExport` in order, the resulting places, the bytes of the arena; `ExportFile.lean`: `main` of clexport down to the bytes of the file. The links of the exported database are an invariant of all passes (`Proofs/Link.lean`, `Link2.lean`); the plan meets the conditions of C84 (`Proofs/Plan*.lean`). |
| C86 | What the scanner recorded is what the program reads in memory | `Verif/Props/EndToEnd.lean`: C72 (merge), C73 (what is declared), C85 (the file) and C84 (the look-ups) composed; `Answers` says in terms of bytes at addresses what the program reads. `Verif/Props/EndToEndDetails.lean` says the same of base types, parameters and return values, attributes and sizes (`Details`); `C86_numbers` gives the numbers of the kinds. |
| C87 | Every member of every object of the database is in the memory a program loads | `Verif/Props/Contents.lean`: the structure `Contents` lists, for every kind of object, what is read at which address; proved from C85, C59, C19 and the final state of the export passes (`Proofs/Export6.lean`, `Final`). |
| C88 | Classes and template types know their constructors, types and fields their containers | `Verif/Props/ExportLinks.lean` over the passes of `Model/Export.lean` (`classConstructors`, `instanceConstructors`, `linkContainers`): the extra links are followed through all later passes (`Proofs/Export9.lean`, `Proofs/Export10.lean`) and described by names only. Container theorems assume no two types share a name (`UniqueTypes`), which C17 shows the search needs. |
| C89 | Addresses from the map file reach the loaded program | `Verif/Props/MapLoaded.lean`: induction over the items of the file (`Proofs/MapItems.lean`) on top of C62 to C64 and C83, then C85 and C87 of the database that results. The specification (`Model/MapItemsSpec.lean`) says which function a line means by names and parameter lists only. |
| C90 | A scanned translation unit leaves in the database what it declares | `Verif/Props/ScanUnit.lean`: a run over a tree is a run over the list of declarations reflected (`Proofs/ScanUnit.lean`, `ScanUnitRuns.lean`), each with the effect shown in `Proofs/ScanUnitStep.lean`; an invariant over that list (`Proofs/ScanUnitFold.lean`) gives the tables. A class that is only declared has the size by which the merger knows forward declarations. That the walk ends is `C90_ends`. The specification is `Props/ScanUnitSpec.lean`. |
| C91 | What C++ sources declare is what a program reads in memory | `Verif/Props/Source.lean`: what a walk leaves (C90) is said by its calls (`Proofs/ScanStore.lean`), so that the database clscan writes (C81) holds what the unit declares (`Holds`, `Props/ScanStoreSpec.lean`); the answers of the databases in memory (C86) are then turned into answers about declarations (`Proofs/Source.lean`; specification in `Props/SourceSpec.lean`). `C91_database_partial` says, entry by entry, what the database of one file records of the declarations (`Records`, `Props/ScanRecordsSpec.lean`, proved in `Proofs/ScanRecords.lean`). All hypotheses are met by two files in `Props/SourceExample.lean`. Partial: what C86 asks of hashes and of the merged database. |
| C92 | The text log of an export lists the exported database | `Verif/Props/ExportLog.lean`: that the calls write a listing of the linked tables at an indentation is an invariant of the logger (`Writes`, `run_writes` in `Proofs/ExportLog.lean`); that the linked tables are those of the database is C17-C20, C59. Induction on the depth of namespaces and classes, which is bounded by the database. `C92_everything_listed` says from the specification alone that all reachable entries are found in it. Partial: names of more than 240 bytes, nesting of more than 126 levels. |
| C93 | Loading JSON changes nothing outside the object, whatever the text | `Verif/Props/JSONInside.lean`: induction on the fuel of the mutually recursive parser with the invariant `OnlyIn` (`parse_in` in `Proofs/JSONInside.lean`), which composes; containers by the freshness of what they allocate. Partial: the three cases in which the code writes outside. |
| C94 | Loading a versioned binary changes nothing outside the object, whatever the bytes | `Verif/Props/VBinInside.lean`: every loading function only changes what is inside (`Ins` in `Proofs/VBinInside.lean`, which composes under `bind`), induction on the steps. Partial: pointers to larger types, enums of less than four bytes. |
| C95 | Numbers in JSON are converted to the type of the field as C++ converts them | `Verif/Props/JSONConvert.lean`: the token of each number (C60) is the same whatever follows, then induction on the members, by C35's table of types. |
| C96 | An error of a JSON text says where it is | `Verif/Props/JSONError.lean`: an invariant of the lexer (`Track`) that ends with the error that is recorded (`Done`), kept by each lexing and parsing function. Partial: lines when containers are loaded. |
| C97 | The JSON text of an object is what the object holds | `Verif/Props/JSONText.lean`: by induction over the type (`obj_shows`), with the digit loops against `Nat.toDigits` (`radixLoop_text`) and the chosen members against `ClassMembers`. |
| C98 | The versioned binary of an object is what the object holds | `Verif/Props/VBinBytes.lean`: by induction over the type (`object_appends`); uniqueness of `Encodes` by induction over its derivations. |
| C99 | Objects live in their groups from creation to destruction | `Verif/Props/ObjectLife.lean`: an invariant (`Inv`) over histories: every live group refines the map of its live members; negations for ids used twice, groups destroyed before their members, no id, classes that are not objects. |
| C100 | Custom load and save functions cannot disturb the rest of a versioned binary | `Verif/Props/VBinCustom.lean`: the proof of C38 by fields (`Pair`, relative to the fields without functions) with a step for fields with functions, whose position is corrected; negation for a field that is saved by a function and loaded without one. |
| C101 | load_json and post_load functions are called for the right objects at the right time | `Verif/Props/JSONHooks.lean`: the loader of C31 with functions (`parseObjectH`), equal to it without; termination and confinement by the induction of C33 and C93; `Does` by induction on the relation, with agreement of the two loaders on types without functions; negations for the object itself, C arrays, pointers, objects given to a function, errors, empty objects and base types. |
| C102 | save_json and pre_save functions are called for the right objects at the right time, and load_json undoes save_json | `Verif/Props/JSONSaveHooks.lean`: the saving of C28 with functions and memory handed on (`saveObjH`), equal to it without functions; the members of a class as `MembersSaved`; the round trip by composing `Lasting` tokens with the relation `Does` of C101; negations for the object itself, quotes in string tokens, integers of -10^18 and less, base types and the order of `pre_save` functions. |
| C103 | Functions of fields at any depth are used in the versioned binary, and objects that have them come back | `Verif/Props/VBinHooks.lean`: the saving and loading of C37 to C39 with functions in every class, equal to it without functions (`C103_none`); the chunks of a class (`C103_chunks`); the round trip by induction over `Lasts`, with the frame of each value kept so that later ones do not undo it; `Verif/Props/VBinHooksVer.lean`: the same between two versions of the types (`C103_versions_partial`, `C103_reach`). |
