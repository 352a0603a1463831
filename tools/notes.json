{
 "C01": {
  "status": "proved",
  "note": "All sorted tables up to 2^30 entries; the bound is shown tight."
 },
 "C02": {
  "status": "proved",
  "note": ""
 },
 "C03": {
  "status": "proved",
  "note": ""
 },
 "C04": {
  "status": "proved",
  "note": ""
 },
 "C05": {
  "status": "proved",
  "note": "Over all histories of interning calls; a hash collision is the distinct assertion outcome."
 },
 "C06": {
  "status": "proved",
  "note": "All 16 entry kinds and names; forward-declared classes may be upgraded to a definition."
 },
 "C07": {
  "status": "proved",
  "note": "Names, no invention, no duplicates, overload union (no hash collisions, no -0.0 float attribute, no function address yet), goes through without assertion."
 },
 "C08": {
  "status": "partial",
  "note": "Proved for databases without NaN float attributes; negation with a NaN attribute."
 },
 "C09": {
  "status": "proved",
  "note": "Over every list of input databases."
 },
 "C10": {
  "status": "partial",
  "note": "Hexadecimal texts round-trip for all 2^32 values, and decimal ones as compiled by Microsoft's compiler. With other compilers (snprintf size 10) every value >= 10^9, so every negative number, loses its last digit: C10_decimal_large_wrong is the negation, the partial theorem covers values below 10^9."
 },
 "C100": {
  "status": "partial",
  "note": "Fields saved by a function must be loaded by one if loaded (C100_save_only_negation); functions only for fields of the outermost class and its bases; loading functions as in Behaves; other fields as in C38."
 },
 "C101": {
  "status": "partial",
  "note": "Termination, confinement and equality without functions in full; what a text does for objects within objects, containers and C arrays, with one value per load function. Dictionaries are not covered; the object itself, C arrays of classes with load functions, pointers and objects given to load functions are refuted."
 },
 "C102": {
  "status": "partial",
  "note": "Proved: which functions are called, when and for what; which text is written; the token comes back; the round trip for objects with values of the types of C31 and of classes with inverse functions, in objects, containers and C arrays to any depth. Missing: in the round trip pre_save and post_load functions of what is inside of the object, dictionaries with functions, mapped pointers, and a post_load function that fails; C arrays of pointers in the text of a class."
 },
 "C103": {
  "status": "partial",
  "note": "Proved for functions of fields in classes at any depth (fields of class type, base classes, elements of containers, dictionaries and C arrays), and for types that have changed between saving and loading, primitive types of another size among them; missing: containers and C arrays of pointers, and a loading function for a field that was saved without one."
 },
 "C11": {
  "status": "partial",
  "note": "Proved for storable databases (texts without NUL/tab/newline and non-empty, sizes below 4 GiB, numbers below 10^9 unless MSVC, floats that survive %f). The excluded cases are lost or undefined: C11_tab_cuts_text, C11_empty_text_undefined, C11_newline_undefined, C11_negative_offset_wrong, C11_large_size_wrong, C11_alike_floats_lost."
 },
 "C12": {
  "status": "partial",
  "note": "C12_what_is_accepted is the exact set of accepted files; every written file is accepted for every database; other versions are rejected. 'Only files with the header' is false of the code: C12_headerless_accepted, C12_no_version_accepted."
 },
 "C13": {
  "status": "partial",
  "note": "Full round trip of every table for storable databases (names interned, texts distinct and at most 1023 bytes) when there are no attributes, for any padding bytes. Missing: attributes - the real build gives Attribute a virtual destructor so the Primitive base sits 8 bytes in while the serialiser's offsets do not, and C13_attributes_undefined proves the write is then undefined for every database with an attribute; C13_shared_text_wrong and C13_long_text_cut prove two further failures."
 },
 "C14": {
  "status": "partial",
  "note": "Round trip through makeRelative, the file and loading at any base for every image with disjoint in-range slots. Missing: pointers to the very first byte of the image, which the real code turns into null (C14_start_pointer_lost, proved for all images)."
 },
 "C15": {
  "status": "partial",
  "note": "Exact rejection condition and rejection of every truncated file are proved for all files; staying inside is proved for files whose instructions name slots inside the image. False in general: C15_crafted_file_outside gives for every image and every outside offset a file that makes the loader access it."
 },
 "C16": {
  "status": "proved",
  "note": "Whole Database::Load at byte level, for images whose arrays lie inside and apart."
 },
 "C17": {
  "status": "partial",
  "note": "Proved for well-formed databases without ambiguous parents, laid out so that no object's address has a name hash as its low half: child arrays of every scope and attribute arrays are exact and duplicate free, back pointers, null parents of orphans, return values. Negations: C17_alias_negation (address aliasing), C17_orphan_field_ub, C17_overload_attributes, C17_primitive_attribute_keeps_hash."
 },
 "C18": {
  "status": "partial",
  "note": "All child and attribute arrays and the type table sorted and permutations; runtime lookups of types and children exact; the global namespace arrays exact. Under the layout conditions of C17. The base type arrays are filled after the sort and are not sorted (the runtime scans them)."
 },
 "C19": {
  "status": "partial",
  "note": "Every flag bit characterised for enums, fields, functions and classes, with inheritance along every chain of bases, under the conditions of C17. Negations of naive readings: C19_transient_not_inherited, C19_cyclic_never_ends; attributes of overloads go to the first (C17_overload_attributes)."
 },
 "C20": {
  "status": "partial",
  "note": "No dangling type in class fields, parameters and return values of methods and namespace functions, and nothing else dropped, under the conditions of C17. Negation: functions of the global namespace are not checked (C20_global_function_negation)."
 },
 "C21": {
  "status": "proved",
  "note": "For every acyclic inheritance graph, any depth and width."
 },
 "C22": {
  "status": "proved",
  "note": "First constant with the value; null exactly when there is none."
 },
 "C23": {
  "status": "partial",
  "note": "Proved for requests below 4 GiB together. The 32-bit offset wraps for larger ones and the assertion does not notice: C23_wrapping_request_overlaps."
 },
 "C24": {
  "status": "proved",
  "note": "Both removals and deep copy, any element type."
 },
 "C25": {
  "status": "partial",
  "note": "Contents proved for every operation sequence with initial capacity of at least two and sizes where the 32-bit capacity arithmetic does not overflow. Capacities 0 and 1 never grow (C25_tiny_capacity_never_returns) and requests above 2/3 of 4 GiB overflow (C25_four_gigabytes_overflow)."
 },
 "C26": {
  "status": "partial",
  "note": "Reads stay inside the buffer as long as no seek moves before its start; a seek before the start makes later reads leave the buffer (C26_seek_underflow_reads_outside)."
 },
 "C27": {
  "status": "partial",
  "note": "C27_next_token_partial: on every input that does not end in 'e' or 'E' (optionally followed by nothing) LexerNextToken reads no byte outside the buffer, trips no assertion, consumes at least one byte for every valid token, and keeps the first error. C27_stream_ends_partial: repeated calls reach the end of the stream. C27_unfinished_exponent_negation: on \"1.5e\" at the end of the buffer VerifyDecimal reads one byte outside it, so the property fails without the restriction. The strtod result is a parameter."
 },
 "C28": {
  "status": "partial",
  "note": "C28_signed_round_trip, C28_unsigned_round_trip, C28_hex_round_trip: every value for which saving is defined is read back. C28_object_round_trip_partial: the same for the bytes of an object of every registered integer type. C28_signed_buffer_negation: every int64 at or below -10^18 writes before the 20 byte array, so the property is false for those."
 },
 "C29": {
  "status": "proved",
  "note": "C29_double_round_trip for all 2^64 patterns. C29_float_round_trip for all floats that are not signalling NaNs (a conversion quiets those on IEEE hardware, Floats.Ieee states what is assumed of the conversions and ieee_exists that it can be met)."
 },
 "C30": {
  "status": "partial",
  "note": "Plain enums: proved in full for every enum with distinct names/values. Flags: proved for values that are unions of non-overlapping constants; C30_overlapping_flags_negation shows that overlapping constants lose the value."
 },
 "C31": {
  "status": "partial",
  "note": "Every supported class of any depth saves and loads back with no error, containers and dictionaries from enums to classes included; transient and pointer fields untouched. Excluded: other dictionaries, pointer maps, non-hex floats, enums not of 4 bytes, two overlapping bases, duplicate names; negation theorems give witnesses for the excluded cases where the code is wrong (dictionaries of numbers are not loaded, dictionaries from numbers are no JSON and not loaded inside containers)."
 },
 "C32": {
  "status": "partial",
  "note": "Any unknown or transient member, of any value in the grammar, can be added or removed without changing the effect of loading. Types without dictionaries."
 },
 "C33": {
  "status": "partial",
  "note": "Every text accepted without an error is JSON up to the token after the last top-level member (soundness of lexer and parser), and loading ends on every text. The top-level closing brace is not checked by the code: negations with witnesses. Dictionaries excluded (separators unchecked: negation)."
 },
 "C34": {
  "status": "partial",
  "note": "For every class with distinct field offsets the sorted output is a permutation in increasing offset order and contains each written field once; C34_equal_offsets_negation: fields at the same offset (empty classes, unions) are dropped."
 },
 "C35": {
  "status": "partial",
  "note": "C35_dispatch: after setup every registered built-in type name has the functions registered for it and setup trips no collision assertion. C35_other_names_negation: the slot is hash mod 47 without a check of the name, so unregistered names are dispatched to other types' functions (8 byte writes into 4 byte enums) and signed char asserts on save."
 },
 "C36": {
  "status": "partial",
  "note": "All elements mappable: the text is the JSON array of the mapped hashes, in order. C36_unmappable/C36_negation: after an unmappable element the iterator is not advanced, so the rest is not written and the text is malformed."
 },
 "C37": {
  "status": "partial",
  "note": "C37_round_trip_partial: every supported type (nested classes with bases, C arrays, containers, dictionaries with primitive or enum keys, enums of 4 bytes with named values; no pointers) of any depth is loaded back from what was saved, consuming exactly the written bytes, and nothing but the loadable fields changes. Negations with witnesses: pointers, arrays of pointers, unnamed enum values, enums of 8 and of 1 byte, two base classes, dictionaries with class keys."
 },
 "C38": {
  "status": "partial",
  "note": "C38_versions_partial for every pair of compatible versions of any depth: shared fields get the saved value (enums by name), others, and native types whose size has changed, keep theirs, the stream stays aligned; C38_other_type_skipped_partial. Excluded, with negations: changing between C array and single value, changing the element type of a C array (the skip is applied after the container header was read)."
 },
 "C39": {
  "status": "partial",
  "note": "C39_ends_partial: on every input loading returns unless it seeks backwards; it runs forever only after a backward seek. C39_ends_low_partial: for inputs without bytes >= 128 it always ends, normally, at an assertion or at the over-read. Negations: for every class an input that loops for ever; a container whose data ends at its header is read past the buffer's end."
 },
 "C40": {
  "status": "proved",
  "note": "All histories of add/remove with distinct non-zero ids, all growth and purge steps; refinement to a partial map."
 },
 "C41": {
  "status": "proved",
  "note": "All histories, including repeated ids and removal of absent objects."
 },
 "C42": {
  "status": "partial",
  "note": "Proved for histories with distinct ids. The full claim (repeated ids) is false of the code: C42_duplicate_ids_leave_dangling."
 },
 "C43": {
  "status": "partial",
  "note": "Proved for paths of one or two ids and for parent search. Longer paths are false of the code: C43_three_ids_fail; C43_only_last_two_ids_count says what it computes instead."
 },
 "C44": {
  "status": "proved",
  "note": "All tables and all finite trees of groups; the array holding pending groups is modelled too."
 },
 "C45": {
  "status": "partial",
  "note": "C45_each_leaf_once_partial: for every type tree and every memory, the calls are exactly one per path to a selected leaf (pointers; basic and enum values when asked for), with the place that path leads to; C45_stop_partial, C45_pointers_partial are consequences. Assumed: no reference fields, bases at the start of the object, containers keep their iterator contract. Negations with witnesses: fields of a second base are visited at the wrong address; a reference's own bytes are visited as the object it refers to."
 },
 "C46": {
  "status": "partial",
  "note": "C46_well_formed_partial: every list of well-formed items (flags, decimal, 0x hex, float with a point, symbol, quoted text; names and values up to 1023 characters, decimals below 2^31), with any blanks between the parts, parses to exactly its attributes in order, with the names interned; C46_collision_partial: otherwise the name-collision assertion fails. What %f reads is a parameter. Negations with witnesses: 0X hex gives 0, a negative number drops the whole list, 1e5 becomes 1, long texts are cut."
 },
 "C47": {
  "status": "partial",
  "note": "C47_safe_partial: for every ASCII text whose last visible character is not a comma, parsing ends and reads no token past the end (it returns, or the name assertion fails, or atoi gets a number out of range); C47_ends_partial: it ends for every text. C47_trailing_comma_negation: behind every well-formed list a comma makes the parser read past the token list; also undefined: isalpha on a negative char, atoi out of range."
 },
 "C48": {
  "status": "partial",
  "note": "Proved for every declaration tree: everything in the database comes from a declaration that is visible (marked or inside a scope marked reflect, or itself reflect_part), and every such declaration is in the database; the reflection state is restored after each declaration (unconditional). Excluded: forward declarations marked noreflect (reflected anyway: negation proved) and attribute names whose hash is by chance that of one of the three control words."
 },
 "C49": {
  "status": "partial",
  "note": "Proved when the symbol is not named by a reflection spec or says itself whether it is reflected; nothing else is recorded than what was written. Negation proved: with a spec, the first attribute is dropped. Also proved: attributes of unreflected symbols are recorded."
 },
 "C50": {
  "status": "partial",
  "note": "For databases in which every name spells the place of its symbol (parents present, parts of at most 498 characters): reading the generated lines back gives exactly the declarations expected of the database, as multisets, and exactly the namespaces with something below them, each once. Fails, with witnesses, for longer names (declaration cut at 511 characters) and for namespaces whose parent is missing."
 },
 "C51": {
  "status": "partial",
  "note": "The file that holds the generated text is never touched; a missing file, a file without the comment and a file generated from a text with another hash are replaced; a write interrupted before the hash is complete is repaired. Fails: any file with the right first line is kept, in particular any file truncated after the hash by an interrupted write."
 },
 "C52": {
  "status": "proved",
  "note": "Every text, pattern and replacement; the empty pattern never returns (C52_empty_pattern_never_returns), which the statement excludes."
 },
 "C53": {
  "status": "partial",
  "note": "Exact when the token is shorter than the buffer; for every token as long as the buffer or longer the terminator is written behind its end: C53_long_token_writes_outside."
 },
 "C54": {
  "status": "partial",
  "note": "C54_places_partial: for every history of uses of the cache for functions of up to 15 parameters, then a function of up to 16: the parameters are in call order, all in the buffer's one current block (nothing has moved), inside it, and disjoint; also when loading stops early. Missing: a cache used before for 16 parameters (the assertion in GetParameter stops the next use, C61_sixteen_negation). Storage is not aligned (C54_unaligned_negation)."
 },
 "C55": {
  "status": "proved",
  "note": "Every argument list and occurrence number."
 },
 "C56": {
  "status": "proved",
  "note": "Every file."
 },
 "C57": {
  "status": "proved",
  "note": "Same names of every kind; same overloadable entries without hash collisions."
 },
 "C58": {
  "status": "proved",
  "note": "LP64 layout; the finite table of exported types is complete, arrays of any length."
 },
 "C59": {
  "status": "proved",
  "note": "Exact, for well-formed databases with unique type names under the layout conditions of C17."
 },
 "C60": {
  "status": "proved",
  "note": "C60_decimal, C60_negative, C60_hex: for every digit string and every context, with blanks in front; C60_at_end shows that the delimiter is needed (a number that ends with the text is an error)."
 },
 "C61": {
  "status": "partial",
  "note": "C61_lifetimes_partial: for every history of uses with up to 15 parameters each and any loading outcomes, followed by the destructor, the log of constructor and destructor calls is balanced, without overlap and without use after release. C61_sixteen_negation: with exactly 16 parameters the cache can be built but neither destroyed nor reused (GetParameter asserts on the number of parameters)."
 },
 "C62": {
  "status": "partial",
  "note": "Proved: for signatures of the grammar in MapFileSpec (named, signed, 64-bit and one-argument template types, const, pointer and reference, as Microsoft's undecorator prints them, and the part of it GCC prints unambiguously) the first function with the name and id gets the address and nothing else changes; symbols of other functions change nothing; from the line on for Microsoft and from the signature on for GCC. False in general (negations): GCC's `float const&` and `long long`, operators in template arguments, two template arguments, Microsoft const methods, 64-bit Microsoft addresses, names that end in a keyword."
 },
 "C63": {
  "status": "partial",
  "note": "Proved: names without template arguments for every parameter list; names or return types with one list of template arguments; the loops end for every signature. False in general (negations): the same arguments twice, conversion and call operators. Missing: several different lists of template arguments."
 },
 "C64": {
  "status": "partial",
  "note": "Proved for types whose names have no blank, star or closing angle bracket, from the signature on for GetType and GetTypeNameHash. False for template types (negation)."
 },
 "C65": {
  "status": "partial",
  "note": "Termination proved for all texts; buffers for signatures under 512 characters. False for longer ones and empty files (negations)."
 },
 "C66": {
  "status": "partial",
  "note": "Proved: what is recorded is what is declared, one meaning per type, every supported type and array of supported types is recorded, unsupported ones never. False for arrays by way of a typedef (C66_typedef_array_false) and passed over for types not instantiated yet."
 },
 "C67": {
  "status": "partial",
  "note": "Proved: recorded instances are described with all they are made of, supported instances are recorded, and with no instance in itself and distinct names the scan ends with each entry once. False otherwise: see the C67_*_false and C67_recursive_base_never theorems."
 },
 "C68": {
  "status": "partial",
  "note": "Proved for parameters, this, numbers and all-or-nothing; return types as declared for pointers and values. False for returned references and void* (C68_*_false)."
 },
 "C69": {
  "status": "partial",
  "note": "Proved: all fields are recorded, with their offset in the struct they are declared in, which is that in the class when anonymous structs start at offset 0. False otherwise (C69_anonymous_struct_false)."
 },
 "C70": {
  "status": "partial",
  "note": "Proved: all constants in order, and exactly when the value recorded is right (C70_value_iff). False for small negative values and names in scoped enums."
 },
 "C71": {
  "status": "partial",
  "note": "Proved for databases whose names spell their scopes and have at most 430 characters. False for longer names (lines are cut at 511 characters) and for a database without types (array of no elements)."
 },
 "C72": {
  "status": "partial",
  "note": "Proved for databases whose values fit the format and whose names do not collide; exit codes and untouched files for every run. False for outputs that can not be written (undefined), for files that are no databases (accepted as empty, or undefined when short) and for options behind inputs."
 },
 "C73": {
  "status": "partial",
  "note": "C73_scan_to_lookup_partial composes clmerge, clexport and the runtime lookup for any number of inputs; it asks of the merged database what C17 asks (no ambiguous parents, no cyclic bases, tables placed away from name hashes: C17_alias_negation) and for no map file (C89 is with one). C73_exit_code is for all arguments and files. C73_unwritable_output_false: an output that can not be written is not reported."
 },
 "C74": {
  "status": "proved",
  "note": "All histories, all kinds of primitives. Beside it, two shortcomings the statement allows for: inheritances under one text replace each other, and containers without a name are stored."
 },
 "C75": {
  "status": "partial",
  "note": "C arrays proved in full; lives of implementations for iterators initialised once. False, for every case: read iterators without an implementation are undefined when destroyed (C75_unused_reader_undefined_false); iterators initialised twice (C75_second_use_false)."
 },
 "C76": {
  "status": "partial",
  "note": "Proved for every function of at most 16 parameters passed by value (classes, numbers, enums, containers, arrays as in C31), whatever order the database lists them in: one fresh object per parameter in call order with the saved value, apart from each other, nothing else touched; too few values and texts that are not lists are refused. Missing: pointers. False of the code and proved so: separators and anything after the last value are unchecked; a string for a parameter that is not an enum is accepted and ignored."
 },
 "C77": {
  "status": "partial",
  "note": "C77_stdout: for every history the standard output is exactly the messages, as often as it was set since a file was. C77_file_partial: a file set for one name and tag holds exactly its messages after every call. C77_never_fails for the three tags and depths below 128. False, each for all texts: a file drops the streams set before; a file for several tags is overwritten; texts are cut at 511 bytes; deep indentation is undefined; names are addresses."
 },
 "C78": {
  "status": "partial",
  "note": "C78_lifetimes_partial, C78_nothing_left_partial: every history over any number of modules and libraries in which no module is loaded again after it was loaded, none is copied and hosts are not null. False otherwise: C78_loaded_twice_false, C78_stale_database_false, C78_copied_undefined, C78_null_host_asserts."
 },
 "C79": {
  "status": "partial",
  "note": "C79_cdecl_partial and C79_thiscall_partial: all lists of up to 15 parameters, if the function has an address and whole words can be read of each argument. C79_count_refused, C79_templates in full. False: over-read of objects that do not fill words, missing address, null this, 16 parameters, the template without arguments."
 },
 "C80": {
  "status": "partial",
  "note": "C80_containers, C80_nothing_else, C80_specs: any files, macros and walks, for macros whose texts have no dash and whose key info is haskey or nokey. C80_dash_false and C80_key_false: all others are dropped."
 },
 "C81": {
  "status": "partial",
  "note": "C81_outcome, C81_format (names of other than three characters), C81_text_read_back, C81_defined for any files and any walk. C81_binary_read_back_partial needs a database without attributes (C13). False: three character names, unwritable outputs, base types once per file, specs carry over to later files."
 },
 "C82": {
  "status": "partial",
  "note": "Proved over all histories: which blocks are in use, by whom, and with what content; giving back is never undefined; everything is given back if no file ends early. False of the code and proved so: a load that fails after the header leaves blocks behind. Allocators are assumed to give fresh blocks and never null."
 },
 "C83": {
  "status": "partial",
  "note": "Proved for all files of the three formats as specified, with any other lines in them. False of the code and proved so: files of newer GNU linkers, texts of the program that look like a table's title (macOS), an unfinished last line. Lines over 4095 characters and fields over 1023 are excluded (C65)."
 },
 "C84": {
  "status": "proved",
  "note": "Hypotheses: the image holds the database (Represents), its areas do not overlap (Laid), its pointers are null or lead to objects (Linked), it is smaller than 4 GB; sorted tables for the look-ups (C18). That the export passes build such an image is C17/C18 and, for the bytes, not modelled: the allocator's addresses are the parameter Place."
 },
 "C85": {
  "status": "partial",
  "note": "Asks of the database that everything it refers to is in it, that nothing has two possible parents and that no object's address ends in the hash of a name (Fits); proved for every such database, every arena and every load address. The map file parser is a parameter (C83 proves it on its own, C89 puts it in)."
 },
 "C86": {
  "status": "partial",
  "note": "Composition of C72, C73, C84 and C85 for the command lines without a map file; asks of the merged database what C85 asks. C86_details_partial adds base types, parameters, return values, attributes and sizes; template arguments in memory are in C85 only."
 },
 "C87": {
  "status": "partial",
  "note": "Asks of the database what C85 asks (Fits), and that its table of names has the names of everything once (databases that were read from files have, and still after a map file); base types, inherited flags, containers and iterators also that no two types share a name."
 },
 "C88": {
  "status": "partial",
  "note": "Asks of the database what C17 asks (Ready), and for containers that no two types share a name (UniqueTypes). C88_claimed_function: a method named as a template type's constructor has that type for parent, though its class still lists it."
 },
 "C89": {
  "status": "partial",
  "note": "C89_loaded_partial is for the command line with a map file of a Linux or macOS linker; it asks that the lines are spelled as C62 to C64 ask (Items), and of the database with what the map file adds what C85 asks (Fits). Microsoft's map files are read by C83_msvc_partial and C62 but not composed here."
 },
 "C90": {
  "status": "partial",
  "note": "The tables after the walk over any translation unit are those read off the declarations. Partial because the code leaves base classes of classes it does not record (C90_left_over_false) and because an instance of a template is taken to be supported if one of the same name has been recorded (C90_order_false); C90_exact is without the second under a condition on each declaration alone. Assumes, as C48 and C66 do, that no attribute has the hash of reflect by chance and that names in types are what they can be in C++."
 },
 "C91": {
  "status": "partial",
  "note": "Asks what C86 asks: no two texts with one hash, and a merged database that fits (C85). C91_database_partial says what the scanner's database records of each declaration, attributes, bases, parameters and template arguments included; in memory these are said in terms of the databases (C86_details_partial), not of the declarations."
 },
 "C92": {
  "status": "partial",
  "note": "Databases with names or texts of at most 240 bytes nested at most 126 deep; beyond that the logger cuts lines or writes behind its indentation (C77)."
 },
 "C93": {
  "status": "partial",
  "note": "Whatever the text, only the object and what is allocated for its containers changes. False of the code, with witnesses, for objects given for pointers to classes and for enums of less than four bytes."
 },
 "C94": {
  "status": "partial",
  "note": "Whatever the bytes and however loading ends, only the object and what is allocated for its containers changes. False of the code, with a witness, for pointers to types larger than pointers; nothing is said of enums of less than four bytes."
 },
 "C95": {
  "status": "proved",
  "note": "C95_converted: any layout, any order and repetition of members. C95_out_of_range_undefined: decimals outside the type's range have no defined conversion."
 },
 "C96": {
  "status": "partial",
  "note": "C96_position: every error of every text and type is located. C96_line_partial: line and column, for types without containers other than dictionaries and arrays; false of the code, with a witness, for containers."
 },
 "C97": {
  "status": "proved",
  "note": "Proved of every save that returns, for the types of the statement. Lists of pointers of which some cannot be mapped are C36; a field whose type is a transient class has no text after its name (C31_transient_class_negation); values that cannot be saved at all are C28."
 },
 "C98": {
  "status": "proved",
  "note": "Proved of every save that returns, for every type. Of a pointer the code saves what would be there if it were not one, and of the elements of a list of pointers nothing (C37_pointer_negation, C37_pointer_elements_negation): Encodes says so."
 },
 "C99": {
  "status": "partial",
  "note": "Proved for histories in which the ids within a group differ, objects placed in groups have an id, classes derive from Object, and groups are destroyed after their members; each restriction is needed (negations)."
 }
}