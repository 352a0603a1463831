{"id": "C01", "title": "Lookup by hash finds a primitive iff it is present", "statement": "Looking up a name, type, namespace, template or function by hash in a loaded database returns an entry whose hash is the one asked for whenever such an entry exists in the (hash-sorted) table, returns null/-1 when none exists, reads only indices inside the table and terminates.", "quantifier": "every sorted table of every size below 2^30 entries, every 32-bit hash", "why_tests_cant": "The table sizes and hash distributions are unbounded; the boundary behaviour of a binary search depends on every size and probe position.", "anchors": ["src/clReflectCpp/clcpp.cpp:BinarySearch", "src/clReflectCpp/clcpp.cpp:clcpp::internal::FindPrimitive", "src/clReflectCpp/clcpp.cpp:clcpp::Database::GetName", "src/clReflectCpp/clcpp.cpp:clcpp::Database::GetType"]}
{"id": "C02", "title": "Overload lookup returns exactly the overloads", "statement": "GetOverloadedFunction / FindOverloadedPrimitive return a half-open index range that contains every entry with the requested hash and no other entry; the empty range is returned exactly when there is none.", "quantifier": "every sorted table with any number of duplicates, every hash", "why_tests_cant": "Overload sets can be of any size, at any position of the table.", "anchors": ["src/clReflectCpp/clcpp.cpp:SearchNeighbours", "src/clReflectCpp/clcpp.cpp:clcpp::Database::GetOverloadedFunction", "src/clReflectCpp/clcpp.cpp:clcpp::internal::FindOverloadedPrimitive"]}
{"id": "C03", "title": "Function unique ids separate overloads that differ in one parameter", "statement": "Mixing two hashes is injective in each argument, so two parameter lists of equal length that differ in exactly one parameter whose qualified type hashes differ always get different function unique ids; the final avalanche step of the hash is a bijection on 32-bit words.", "quantifier": "all 32-bit words, all parameter lists of any length", "why_tests_cant": "2^32 values per argument and unbounded lists; a collision would silently merge two overloads.", "anchors": ["src/clReflectCpp/clcpp.cpp:fmix", "src/clReflectCpp/clcpp.cpp:clcpp::internal::MixHashes", "src/clReflectCore/Database.cpp:CalculateFunctionUniqueID"]}
{"id": "C04", "title": "Name hashing is exact on short names and depends on nothing but the bytes", "statement": "HashNameString reads exactly the bytes before the terminator, and two different names of the same length of at most four characters never collide.", "quantifier": "all byte strings; all pairs of equal-length strings of length at most 4", "why_tests_cant": "There are 2^32 four-byte names, and therefore 2^64 pairs.", "anchors": ["src/clReflectCpp/clcpp.cpp:MurmurHash3", "src/clReflectCpp/clcpp.cpp:clcpp::internal::HashNameString"]}
{"id": "C05", "title": "Name interning behaves as a stable map from hash to text", "statement": "After any sequence of GetName(text) calls that did not report a collision, every name ever returned can still be looked up by hash and gives the text it was created from, interning the same text twice returns the same name, and the empty/null text is never stored.", "quantifier": "every finite history of interning calls", "why_tests_cant": "Histories are unbounded and interleave lookups with insertions.", "anchors": ["src/clReflectCore/Database.cpp:cldb::Database::GetName"]}
{"id": "C06", "title": "Merging never loses or changes what the destination already had", "statement": "After MergeDatabases every primitive of the destination is still present, unchanged, except a forward-declared class, which may be replaced by the source's full definition.", "quantifier": "every pair of databases", "why_tests_cant": "All combinations of tables, duplicate keys and overloads are unbounded.", "anchors": ["src/clReflectMerge/DatabaseMerge.cpp:MergeDatabases", "src/clReflectMerge/DatabaseMerge.cpp:MergeUniques", "src/clReflectMerge/DatabaseMerge.cpp:MergeClasses", "src/clReflectMerge/DatabaseMerge.cpp:MergeOverloads"]}
{"id": "C07", "title": "Merging brings in everything the source has", "statement": "After MergeDatabases every symbol of the source is represented in the destination: every unique-kind symbol name is present, every overloadable primitive has an equal entry, and nothing appears that was in neither input.", "quantifier": "every pair of databases", "why_tests_cant": "All combinations of tables, duplicate keys and overloads are unbounded.", "anchors": ["src/clReflectMerge/DatabaseMerge.cpp:MergeDatabases"]}
{"id": "C08", "title": "Merging is idempotent", "statement": "Merging the same database a second time changes nothing, and so does merging a database into itself.", "quantifier": "every pair of databases", "why_tests_cant": "Unbounded inputs; re-merging happens whenever translation units share headers.", "anchors": ["src/clReflectMerge/DatabaseMerge.cpp:MergeDatabases"]}
{"id": "C09", "title": "A class definition wins over forward declarations whatever the merge order", "statement": "After merging any list of databases in any order, a class for which at least one input contains a full definition is recorded with a full definition, and a class is a forward declaration only if every input that mentions it only forward-declares it.", "quantifier": "every list of databases in every order", "why_tests_cant": "The number of translation units and of orders is unbounded.", "anchors": ["src/clReflectMerge/DatabaseMerge.cpp:MergeClasses", "src/clReflectMerge/Main.cpp:main"]}
{"id": "C10", "title": "Hex and decimal text encodings of 32-bit values round-trip", "statement": "hextoi(itohex(v)) = v for every 32-bit v, and the decimal text written for an unsigned value reads back as that value; texts of hexadecimal digits of either case, and of decimal digits after white space and a sign, are read as the number they stand for, up to the first character that is no decimal digit.", "quantifier": "all 2^32 values; all texts of digits", "why_tests_cant": "2^32 values; the failure appears only at ten-digit values.", "anchors": ["src/clReflectCore/FileUtils.cpp:itohex", "src/clReflectCore/FileUtils.cpp:hextoi", "src/clReflectCore/FileUtils.cpp:itoa"]}
{"id": "C11", "title": "Text database round-trip", "statement": "Writing a database to the text format and reading it back yields the same names, primitives, attributes, container infos and inheritance records.", "quantifier": "every database", "why_tests_cant": "Unbounded tables and texts; corner texts (tab, newline, empty, long) and extreme values matter.", "anchors": ["src/clReflectCore/DatabaseTextSerialiser.cpp:WriteTextDatabase", "src/clReflectCore/DatabaseTextSerialiser.cpp:ReadTextDatabase", "src/clReflectCore/FileUtils.cpp:ReadLine"]}
{"id": "C12", "title": "Text database detection accepts only text databases", "statement": "IsTextDatabase returns true only for files that carry the text database header, and true for every file WriteTextDatabase produced.", "quantifier": "every file content", "why_tests_cant": "The set of file contents is unbounded.", "anchors": ["src/clReflectCore/DatabaseTextSerialiser.cpp:IsTextDatabase"]}
{"id": "C13", "title": "Binary database round-trip", "statement": "Writing a database to the binary format and reading it back yields the same names, primitives, attributes, container infos and inheritance records.", "quantifier": "every database", "why_tests_cant": "Unbounded tables and texts; repeated attribute texts and long texts matter.", "anchors": ["src/clReflectCore/DatabaseBinarySerialiser.cpp:WriteBinaryDatabase", "src/clReflectCore/DatabaseBinarySerialiser.cpp:ReadBinaryDatabase", "src/clReflectCore/DatabaseMetadata.h:DatabaseType"]}
{"id": "C14", "title": "Exported pointers survive relocation to any load address", "statement": "Making the exported image's pointers relative and loading it at any base address yields pointers that designate the same object offset in the new image; null stays null and no byte outside the registered pointer slots changes.", "quantifier": "every image, every set of disjoint pointer slots, every pair of base addresses", "why_tests_cant": "Base addresses and images are unbounded; address-space randomisation gives a different base on each run.", "anchors": ["src/clReflectExport/PtrRelocator.cpp:PtrRelocator::MakeRelative", "src/clReflectExport/PtrRelocator.cpp:PtrRelocator::AddPointers", "src/clReflectCpp/clcpp.cpp:LoadMemoryMappedDatabase"]}
{"id": "C15", "title": "Loading a database file never writes outside the loaded image", "statement": "Database::Load rejects, before touching memory, files whose header is wrong or which are truncated, and the pointer patching it performs stays inside the loaded image whatever the file contains.", "quantifier": "every file content", "why_tests_cant": "Adversarial or corrupt files form an unbounded set.", "anchors": ["src/clReflectCpp/clcpp.cpp:LoadMemoryMappedDatabase"]}
{"id": "C16", "title": "Function addresses are rebased uniformly", "statement": "After load with rebasing every exported function address equals its original offset from the exporter's base added to the module's load address (64-bit arithmetic), null addresses stay null, nothing else changes except that every primitive now knows its database; rebasing back restores the original address of every function that did not land on null, in particular of every function inside a module that fits the address space.", "quantifier": "all 64-bit addresses, bases and function tables", "why_tests_cant": "2^64 bases; wrap-around matters.", "anchors": ["src/clReflectCpp/clcpp.cpp:RebaseFunctions"]}
{"id": "C17", "title": "Export parents every primitive to its scope and nothing else", "statement": "In the exported database the child list of a scope contains exactly the primitives whose recorded parent is that scope, each once, and each child points back to the scope.", "quantifier": "every list of primitives and scopes", "why_tests_cant": "Arbitrary scope graphs of unbounded size.", "anchors": ["src/clReflectExport/CppExport.cpp:Parent", "src/clReflectExport/CppExport.cpp:ParentMap", "src/clReflectExport/CppExport.cpp:BuildCArray"]}
{"id": "C18", "title": "Export sorts every searched table", "statement": "Every table the runtime searches by hash is sorted by hash after export and is a permutation of what was gathered, so runtime lookups find every exported symbol.", "quantifier": "every database", "why_tests_cant": "Unbounded tables with duplicates.", "anchors": ["src/clReflectExport/CppExport.cpp:SortPrimitives", "src/clReflectExport/CppExport.cpp:GatherTypePrimitives", "src/clReflectCpp/clcpp.cpp:BinarySearch"]}
{"id": "C19", "title": "Flag attributes are encoded exactly and the inheritable ones are inherited", "statement": "A primitive's flag bits contain a flag exactly when an attribute standing for it is attached to it; a class additionally has the replication flag, and the custom flags of classes marked custom_flag_inherit, of every class it derives from directly or indirectly. The 'transient' attribute covers disk, network and export transience and is not inherited.", "quantifier": "every attribute list and class hierarchy", "why_tests_cant": "Attribute combinations and inheritance graphs are unbounded.", "anchors": ["src/clReflectExport/CppExport.cpp:GetFlagAttributeBits", "src/clReflectExport/CppExport.cpp:InheritFlagAttributes", "inc/clcpp/clcpp.h:attrFlag_Transient"]}
{"id": "C20", "title": "Export never leaves dangling type references", "statement": "After export, every class field and every parameter of a member function that remains in a class refers to a type that was exported; fields and functions with unresolved types are removed and every other one is kept.", "quantifier": "every database", "why_tests_cant": "Arbitrary numbers and positions of invalid primitives.", "anchors": ["src/clReflectExport/CppExport.cpp:IsolateInvalidPrimitives", "src/clReflectExport/CppExport.cpp:RemoveInvalidFields", "src/clReflectExport/CppExport.cpp:RemoveInvalidFunctions", "src/clReflectCore/Array.h:CArray"]}
{"id": "C21", "title": "Inheritance queries are exact", "statement": "Type::DerivesFrom(h) is true exactly when some direct or indirect base of the type has name hash h, for every finite inheritance graph.", "quantifier": "every acyclic hierarchy of any depth and width, every hash", "why_tests_cant": "Depth and shape of hierarchies are unbounded.", "anchors": ["src/clReflectCpp/clcpp.cpp:clcpp::Type::DerivesFrom"]}
{"id": "C22", "title": "Enum value names are exact", "statement": "Enum::GetValueName(v) returns the name of a constant whose value is v when one exists and null otherwise.", "quantifier": "every enum and every 32-bit value", "why_tests_cant": "2^32 values and unbounded enums.", "anchors": ["src/clReflectCpp/clcpp.cpp:clcpp::Enum::GetValueName"]}
{"id": "C23", "title": "Bump allocations are disjoint and inside the arena", "statement": "All blocks handed out by the exporter's stack allocator lie inside the arena and are pairwise disjoint, for any sequence of requests that does not hit the overflow assertion.", "quantifier": "every sequence of allocation requests", "why_tests_cant": "Request sequences are unbounded.", "anchors": ["src/clReflectExport/StackAllocator.h:StackAllocator::Alloc"]}
{"id": "C24", "title": "Array removal removes one element and keeps the others", "statement": "CArray stable_remove removes exactly the indexed element keeping order; unstable_remove removes exactly the indexed element keeping the multiset of the others.", "quantifier": "every array, every valid index", "why_tests_cant": "Unbounded arrays and indices.", "anchors": ["src/clReflectCore/Array.h:CArray::unstable_remove", "src/clReflectCore/Array.h:CArray::stable_remove"]}
{"id": "C25", "title": "The write buffer behaves as an append-only byte string", "statement": "After any sequence of writes, allocations and resets the buffer's contents are the concatenation of what was written since the last reset, growth preserves contents and always leaves enough room, and every write terminates.", "quantifier": "every initial capacity and every sequence of writes", "why_tests_cant": "Growth happens at unbounded sizes; initial capacities interact with the growth loop.", "anchors": ["src/clReflectUtil/Serialise.cpp:WriteBuffer::Alloc", "src/clReflectUtil/Serialise.cpp:WriteBuffer::Write"]}
{"id": "C26", "title": "The read buffer never reads outside its data", "statement": "Every Read/ReadAt/SeekRel sequence either stays inside the data or stops at the assertion.", "quantifier": "every sequence of operations and sizes", "why_tests_cant": "Unbounded histories; negative seeks matter.", "anchors": ["src/clReflectUtil/Serialise.cpp:ReadBuffer::Read", "src/clReflectUtil/Serialise.cpp:ReadBuffer::SeekRel"]}
{"id": "C27", "title": "The JSON lexer is memory safe and always terminates", "statement": "On every input the lexer reads no byte outside the buffer, each token consumes at least one byte or ends the stream, and once an error is recorded the first error code and position are kept.", "quantifier": "every byte string", "why_tests_cant": "All byte strings of every length, including truncated escapes, numbers and keywords at the end of the buffer.", "anchors": ["src/clReflectUtil/JSONLexer.cpp:LexerNextToken", "src/clReflectUtil/JSONLexer.cpp:JSONContext"]}
{"id": "C28", "title": "JSON integers survive save and load", "statement": "Every value of every integer type saved to JSON is read back as the same value, and saving stays inside its formatting buffer.", "quantifier": "all 2^64 signed and unsigned values", "why_tests_cant": "2^64 values; failures only at 19-digit negatives.", "anchors": ["src/clReflectUtil/SerialiseJSON.cpp:SaveInteger", "src/clReflectUtil/SerialiseJSON.cpp:SaveUnsignedInteger", "src/clReflectUtil/SerialiseJSON.cpp:SaveHexInteger", "src/clReflectUtil/JSONLexer.cpp:LexerInteger"]}
{"id": "C29", "title": "Hex floats survive JSON save and load bit for bit", "statement": "With EMIT_HEX_FLOATS, every float and double bit pattern saved is read back as the same double.", "quantifier": "all 2^64 bit patterns including NaNs, infinities, negative zero", "why_tests_cant": "2^64 patterns.", "anchors": ["src/clReflectUtil/SerialiseJSON.cpp:SaveDecimal", "src/clReflectUtil/JSONLexer.cpp:LexerNumber", "src/clReflectUtil/JSONLexer.cpp:LexerHexInteger"]}
{"id": "C30", "title": "JSON enums survive save and load", "statement": "A plain enum value with a constant is saved by name and read back as the same value; a flags value made of declared constants is saved as a '|' list and read back as the same value.", "quantifier": "every enum, every value", "why_tests_cant": "Unbounded enums, 2^32 values, overlapping constants.", "anchors": ["src/clReflectUtil/SerialiseJSON.cpp:SaveEnum", "src/clReflectUtil/SerialiseJSON.cpp:ParserString"]}
{"id": "C31", "title": "JSON object round-trip", "statement": "Saving an object of a reflected class to JSON and loading the text into another object of the class reproduces every non-transient reflected field (integers, enums, nested classes, arrays), leaves transient fields untouched and reports no error.", "quantifier": "every class structure of any depth and every object value", "why_tests_cant": "Unbounded nesting and values.", "anchors": ["src/clReflectUtil/SerialiseJSON.cpp:SaveClass", "src/clReflectUtil/SerialiseJSON.cpp:ParserObject", "src/clReflectUtil/SerialiseJSON.cpp:LoadJSON"]}
{"id": "C32", "title": "JSON loading skips what it does not know", "statement": "A field in the JSON text that the class does not have (or that is transient) is skipped whatever its value, without changing the object and without affecting the other fields.", "quantifier": "every JSON value of any depth", "why_tests_cant": "JSON values are unbounded trees.", "anchors": ["src/clReflectUtil/SerialiseJSON.cpp:ParserPair", "src/clReflectUtil/SerialiseJSON.cpp:ParserValue"]}
{"id": "C33", "title": "JSON loading rejects malformed text", "statement": "LoadJSON reports an error for every text whose value is not complete, well-bracketed JSON.", "quantifier": "every text", "why_tests_cant": "Unbounded texts.", "anchors": ["src/clReflectUtil/SerialiseJSON.cpp:LoadJSON", "src/clReflectUtil/SerialiseJSON.cpp:ParserObject"]}
{"id": "C34", "title": "Sorted field output writes each field once in offset order", "statement": "With SORT_CLASS_FIELDS_BY_OFFSET the saved fields are exactly the class's fields, each once, in increasing offset order.", "quantifier": "every class", "why_tests_cant": "Unbounded field lists; equal offsets (unions) and extreme offsets matter.", "anchors": ["src/clReflectUtil/SerialiseJSON.cpp:SaveClassFields"]}
{"id": "C35", "title": "Builtin type dispatch is collision free", "statement": "The JSON serialiser's type table dispatches each built-in type to the functions registered for it, and no other built-in type shares its slot.", "quantifier": "all registered built-in types, and every other type name", "why_tests_cant": "The table is indexed by a hash modulo 47 of unbounded names; unregistered types must not be dispatched.", "anchors": ["src/clReflectUtil/SerialiseJSON.cpp:SetupTypeDispatchLUT", "src/clReflectUtil/SerialiseJSON.cpp:AddTypeDispatch"]}
{"id": "C36", "title": "Saving a container of pointers saves every mappable element", "statement": "Saving a container of pointers to JSON writes each element the pointer interface can map, in order, and skips the others, producing well-formed JSON.", "quantifier": "every container and every subset of unmappable elements", "why_tests_cant": "Unbounded containers, all subsets.", "anchors": ["src/clReflectUtil/SerialiseJSON.cpp:SaveContainer"]}
{"id": "C37", "title": "Versioned binary round-trip", "statement": "Saving an object with SaveVersionedBinary and loading the bytes with the same class reproduces every non-transient reflected field and consumes exactly the bytes written.", "quantifier": "every class structure of any depth and every object value", "why_tests_cant": "Unbounded nesting and values.", "anchors": ["src/clReflectUtil/SerialiseVersionedBinary.cpp:SaveVersionedBinary", "src/clReflectUtil/SerialiseVersionedBinary.cpp:LoadVersionedBinary"]}
{"id": "C38", "title": "Versioned binary tolerates changed classes", "statement": "Data saved with one version of a class loads with another: fields that exist in both with the same type get the saved value, removed or retyped fields are skipped, new fields keep their value, and the rest of the stream stays aligned.", "quantifier": "every pair of class versions and every object", "why_tests_cant": "All pairs of class versions form an unbounded set.", "anchors": ["src/clReflectUtil/SerialiseVersionedBinary.cpp:LoadClassField", "src/clReflectUtil/SerialiseVersionedBinary.cpp:LoadContainer", "src/clReflectUtil/SerialiseVersionedBinary.cpp:LoadObject"]}
{"id": "C39", "title": "Versioned binary loading terminates on every input", "statement": "LoadVersionedBinary ends (successfully or at an assertion) on every byte sequence.", "quantifier": "every byte sequence", "why_tests_cant": "Corrupt inputs are unbounded; a negative chunk size seeks backwards.", "anchors": ["src/clReflectUtil/SerialiseVersionedBinary.cpp:LoadClass", "src/clReflectUtil/Serialise.cpp:ReadBuffer::SeekRel"]}
{"id": "C40", "title": "An object group is a map from unique id to object", "statement": "After any history of adding and removing objects with distinct non-zero ids, FindObject(id) returns the object currently in the group with that id, or null if there is none, across all growth and purge steps.", "quantifier": "every history of add/remove/find operations and every id", "why_tests_cant": "Histories, table sizes and probe patterns are unbounded.", "anchors": ["src/clReflectUtil/Objects.cpp:ObjectGroup::AddHashEntry", "src/clReflectUtil/Objects.cpp:ObjectGroup::RemoveHashEntry", "src/clReflectUtil/Objects.cpp:ObjectGroup::FindObject", "src/clReflectUtil/Objects.cpp:ObjectGroup::Resize"]}
{"id": "C41", "title": "Object group probing always terminates", "statement": "In every reachable object group the probe loops of find, add and remove terminate: an empty slot always exists.", "quantifier": "every history of operations", "why_tests_cant": "Histories are unbounded; deleted markers accumulate.", "anchors": ["src/clReflectUtil/Objects.cpp:ObjectGroup::AddHashEntry", "src/clReflectUtil/Objects.cpp:ObjectGroup::Resize"]}
{"id": "C42", "title": "Removing an object leaves no trace of it, even with equal ids", "statement": "After an object is removed from its group (for example by destroying it) no lookup or iteration returns it, also when another object in the group has the same id.", "quantifier": "every history of operations, including histories with repeated ids", "why_tests_cant": "Histories are unbounded; failure needs a specific add/add/remove/remove order.", "anchors": ["src/clReflectUtil/Objects.cpp:ObjectGroup::RemoveObject", "src/clReflectUtil/Objects.cpp:ObjectGroup::RemoveHashEntry"]}
{"id": "C43", "title": "Relative paths resolve through nested groups", "statement": "FindObjectRelative(ids) follows each id in the group found by the previous one and returns the object named by the last.", "quantifier": "every tree of groups and every path", "why_tests_cant": "Unbounded trees and paths.", "anchors": ["src/clReflectUtil/Objects.cpp:ObjectGroup::FindObjectRelative", "src/clReflectUtil/Objects.cpp:ObjectGroup::FindObjectSearchParents"]}
{"id": "C44", "title": "Object iteration visits each object exactly once", "statement": "Iterating a group visits exactly the objects in it, each once; recursive iteration visits exactly the objects of the whole tree of groups, each once, and terminates.", "quantifier": "every table layout and every finite tree of groups", "why_tests_cant": "Unbounded layouts and trees.", "anchors": ["src/clReflectUtil/Objects.cpp:ObjectIterator::ScanForEntry", "src/clReflectUtil/Objects.cpp:ObjectIterator::MoveNext"]}
{"id": "C45", "title": "The field visitor visits each selected leaf exactly once", "statement": "VisitFields calls the visitor on exactly the leaf fields of the object (all or only pointers, as asked) reachable through bases, nested classes and containers, each once, and never on a field carrying a stop flag or below it.", "quantifier": "every class structure and object", "why_tests_cant": "Unbounded structures.", "anchors": ["src/clReflectUtil/FieldVisitor.cpp:VisitFields", "src/clReflectUtil/FieldVisitor.cpp:VisitField"]}
{"id": "C46", "title": "Attribute text is parsed exactly", "statement": "Every well-formed attribute list (flags, name=int, name=hex, name=float, name=\"text\", name=symbol) is parsed to exactly those attributes in order.", "quantifier": "every attribute list", "why_tests_cant": "Unbounded lists, names and values.", "anchors": ["src/clReflectScan/AttributeParser.cpp:ParseAttributes", "src/clReflectScan/AttributeParser.cpp:Lexer", "src/clReflectScan/AttributeParser.cpp:AddHexIntAttribute"]}
{"id": "C47", "title": "Attribute parsing is memory safe", "statement": "Parsing any attribute text touches no token beyond the end of the token list.", "quantifier": "every attribute text", "why_tests_cant": "All texts, including those ending in a comma.", "anchors": ["src/clReflectScan/AttributeParser.cpp:ExpectNext", "src/clReflectScan/AttributeParser.cpp:AttributeDef"]}
{"id": "C48", "title": "Reflection opt-in and opt-out follow the scope rules", "statement": "A declaration is reflected exactly when it is marked (or inside a scope marked) reflect, or itself marked reflect_part, and no enclosing scope is unreflected or marked noreflect; marking inside one scope never affects its siblings.", "quantifier": "every tree of declarations with arbitrary marks", "why_tests_cant": "Unbounded trees and mark combinations.", "anchors": ["src/clReflectScan/ASTConsumer.cpp:ASTConsumer::AddDecl", "src/clReflectScan/ASTConsumer.cpp:ASTConsumer::ParseAttributes"]}
{"id": "C49", "title": "Attributes attached to a reflected symbol are all recorded", "statement": "Every non-reflection-control attribute written on a reflected symbol is recorded in the database, whether reflection was requested by an attribute on the symbol or by a separate reflection spec.", "quantifier": "every attribute list and reflection spec", "why_tests_cant": "All combinations of specs and attribute lists.", "anchors": ["src/clReflectScan/ASTConsumer.cpp:ASTConsumer::ParseAttributes", "src/clReflectScan/ReflectionSpecs.cpp:ReflectionSpecs::Get"]}
{"id": "C50", "title": "Code generation forward-declares every type once, in its namespace", "statement": "The namespace tree built for code generation contains every reflected class, struct, enum and template-free type exactly in the namespace path spelled by its name, and pruning removes exactly the namespaces without any types below them.", "quantifier": "every set of qualified names", "why_tests_cant": "Unbounded nesting.", "anchors": ["src/clReflectMerge/CodeGen.cpp:BuildNamespaces", "src/clReflectMerge/CodeGen.cpp:RemoveEmptyNamespaces"]}
{"id": "C51", "title": "Generated files are rewritten only when their contents change", "statement": "Writing generated code leaves a file untouched when it already holds the same generated text, and otherwise the file afterwards holds the new text.", "quantifier": "every previous file content and every new text", "why_tests_cant": "Unbounded texts; hash comparison decides.", "anchors": ["src/clReflectMerge/CodeGen.cpp:WriteFile"]}
{"id": "C52", "title": "String replacement helpers terminate and replace every occurrence", "statement": "StringReplace replaces every non-overlapping occurrence left to right and terminates for every non-empty pattern; Remove leaves no occurrence behind.", "quantifier": "every text, pattern and replacement", "why_tests_cant": "Unbounded texts; self-overlapping patterns and replacements that contain the pattern.", "anchors": ["src/clReflectCore/FileUtils.cpp:StringReplace", "src/clReflectScan/ASTConsumer.cpp:Remove"]}
{"id": "C53", "title": "Token extraction stays inside the destination buffer", "statement": "ConsumeToken copies the characters up to the delimiter and never writes outside the destination buffer it was given.", "quantifier": "every text, delimiter and buffer size", "why_tests_cant": "The failure needs a token of exactly the buffer size or longer.", "anchors": ["src/clReflectCore/FileUtils.cpp:ConsumeToken", "src/clReflectExport/MapFileParser.cpp:ConsumeParameterToken"]}
{"id": "C54", "title": "Function-call parameter caches hold each parameter at a stable, disjoint place", "statement": "Building a parameter cache from JSON for a function with at most 16 parameters gives each parameter its own storage, which is neither moved nor overlapped by later parameters. A function with a parameter numbered 16 or more is refused by an assertion.", "quantifier": "every function signature with up to 16 parameters", "why_tests_cant": "All size combinations.", "anchors": ["src/clReflectUtil/SerialiseFunction.cpp:ParameterData", "src/clReflectUtil/SerialiseFunction.cpp:ParameterObjectCache"]}
{"id": "C55", "title": "Command-line options are found exactly", "statement": "Arguments::Have is true exactly when the option is among the arguments and GetProperty returns the argument following it (empty if none).", "quantifier": "every argument list", "why_tests_cant": "Unbounded lists, repeated options, option at the end.", "anchors": ["src/clReflectCore/Arguments.h:Arguments::Have", "src/clReflectCore/Arguments.h:Arguments::GetProperty"]}
{"id": "C56", "title": "Text files are read line by line, exactly", "statement": "Reading a text file with ReadLine until it returns null yields exactly the newline-terminated lines of the file in order, each cut to 4095 characters; an unterminated last line is not returned.", "quantifier": "every file content", "why_tests_cant": "Unbounded files, lines of any length around the buffer size, files without final newline.", "anchors": ["src/clReflectCore/FileUtils.cpp:ReadLine"]}
{"id": "C57", "title": "The order in which databases are merged does not change the symbols", "statement": "Merging the same translation-unit databases in any order, into an empty database, gives the same set of symbol names of every kind and the same set of overloadable symbols (functions, fields, enum constants, attributes).", "quantifier": "every list of databases and every reordering or repetition of it", "why_tests_cant": "Factorially many orders over unbounded inputs.", "anchors": ["src/clReflectMerge/DatabaseMerge.cpp:MergeDatabases", "src/clReflectMerge/Main.cpp:main"]}
{"id": "C58", "title": "Every pointer of the exported image is registered for relocation", "statement": "For every type the exporter writes, the pointers registered for relocation are exactly the pointers stored in objects of that type, each once, and the slots of any exported array never overlap.", "quantifier": "every exported type, arrays of every length and position", "why_tests_cant": "A forgotten pointer shows only when that member is non-null, the image moves and the member is followed.", "anchors": ["src/clReflectExport/CppExport.cpp:SaveCppExport", "src/clReflectExport/PtrRelocator.cpp:AddSchema", "inc/clcpp/clcpp.h", "inc/clcpp/clcpp_internal.h:DatabaseMem"]}
{"id": "C59", "title": "Exported base types are exactly the recorded ones", "statement": "The base type array of every exported type contains a type exactly when the offline database records that the one derives from the other and both are in the database.", "quantifier": "every database with unique type names", "why_tests_cant": "Arbitrary hierarchies, looked up by binary search in tables of any size.", "anchors": ["src/clReflectExport/CppExport.cpp:BuildBaseClassArrays", "src/clReflectCpp/clcpp.cpp:FindPrimitive"]}
{"id": "C60", "title": "Integers in JSON text are read exactly", "statement": "In JSON text, a decimal integer, a decimal integer with a minus in front, and 0x with hexadecimal digits in either case, followed by a blank, a line end or punctuation, is read as one integer of exactly that value (modulo 2^64), consuming exactly its characters and recording no error.", "quantifier": "every digit string of any length, every surrounding text", "why_tests_cant": "Unbounded digit strings and contexts; both cases of every digit in every position.", "anchors": ["src/clReflectUtil/JSONLexer.cpp:LexerInteger", "src/clReflectUtil/JSONLexer.cpp:LexerHexInteger", "src/clReflectUtil/JSONLexer.cpp:LexerNumber"]}
{"id": "C61", "title": "Parameter objects are constructed and destroyed exactly once", "statement": "Over the whole life of a function-call parameter cache, reused for any sequence of functions with any loading outcomes and then destroyed, each parameter object that is constructed is destroyed exactly once, no object is constructed over one that is alive, and none is destroyed after its memory was released.", "quantifier": "every sequence of uses of a cache, every signature of up to 16 parameters, every point at which loading fails", "why_tests_cant": "Unbounded histories and all failure points.", "anchors": ["src/clReflectUtil/SerialiseFunction.cpp:ParameterObjectCache::Init", "src/clReflectUtil/SerialiseFunction.cpp:ParameterObjectCache::DeleteObjects", "src/clReflectUtil/SerialiseFunction.cpp:BuildParameterObjectCache_JSON"]}
{"id": "C62", "title": "Addresses in a map file reach the functions they belong to", "statement": "After a map file was read, of the reflected functions with a symbol's name and parameters exactly one, the first, has that symbol's address; every other function keeps its address and nothing else in the database changes; a symbol that matches no reflected function changes none.", "quantifier": "every database, every signature the supported compilers print, every address", "why_tests_cant": "Overloads, const methods and template types are matched through hashes of printed text: the space of signatures is unbounded.", "anchors": ["src/clReflectExport/MapFileParser.cpp:AddFunctionAddress", "src/clReflectExport/MapFileParser.cpp:MatchParameter", "src/clReflectExport/MapFileParser.cpp:ProcessFunctionItem", "src/clReflectExport/MapFileParser.cpp:ParseMSVCMapFile", "src/clReflectExport/MapFileParser.cpp:ParseLinuxGCCMapFile"]}
{"id": "C63", "title": "The function's name is found in its signature", "statement": "From a demangled signature the function's name with its scope and template arguments is recovered, whatever its return type and parameters are; the parser always ends.", "quantifier": "every signature, every sequence of random digits", "why_tests_cant": "Signatures nest templates, function pointers and anonymous namespaces without bound, and the parser edits the text as it goes.", "anchors": ["src/clReflectExport/MapFileParser.cpp:ParseFunctionName", "src/clReflectExport/MapFileParser.cpp:ReplacePattern", "src/clReflectExport/MapFileParser.cpp:ReplaceOccurence", "src/clReflectExport/MapFileParser.cpp:RestoreReplacedString", "src/clReflectExport/MapFileParser.cpp:FindRandomString"]}
{"id": "C64", "title": "Addresses of generated functions reach their types", "statement": "The address of the generated GetType or GetTypeNameHash function of a type is recorded for that type and no other, without losing the other address; the functions that construct and destruct a type's objects become functions of that type with one parameter, this.", "quantifier": "every database, every type name, every address", "why_tests_cant": "Type names are unbounded text and the recorded table depends on the history of symbols read before.", "anchors": ["src/clReflectExport/MapFileParser.cpp:AddGetTypeAddress", "src/clReflectExport/MapFileParser.cpp:AddClassImplFunction", "src/clReflectExport/MapFileParser.cpp:SkipTypePrefix"]}
{"id": "C65", "title": "Signatures are read within their buffers and to their end", "statement": "Reading a signature of the map file ends for every text, each parameter consuming at least a character, and never writes outside its fixed-size buffers.", "quantifier": "every signature, every name", "why_tests_cant": "Buffer sizes matter only for long inputs; termination must hold for malformed text.", "anchors": ["src/clReflectExport/MapFileParser.cpp:MatchParameter", "src/clReflectExport/MapFileParser.cpp:ConsumeParameterToken", "src/clReflectExport/MapFileParser.cpp:AddFunctionAddress"]}
{"id": "C66", "title": "Types of fields and parameters are recorded as declared", "statement": "What clscan records of the type of a field, parameter or template argument is what the declaration means: the name of the type with typedefs resolved, whether it is a value, pointer or reference, whether what is held or pointed to is const, and the number of elements of an array. Types that have no such description are not recorded at all, and every type that has one is.", "quantifier": "every type of the source program, every set of template instances, every database so far", "why_tests_cant": "Typedefs, const, pointers, arrays and instances nest without bound.", "anchors": ["src/clReflectScan/ASTConsumer.cpp:GetParameterInfo", "src/clReflectScan/ASTConsumer.cpp:MakeField"]}
{"id": "C67", "title": "Template instances are recorded completely, once, and the scan of them ends", "statement": "For every recorded type that is an instance of a class template the database has one entry with the instance's name, template, size, arguments and base classes, recursively; recording an instance always ends, and no instance has two entries.", "quantifier": "every set of template instances with their arguments and bases, every database so far", "why_tests_cant": "Instances nest through arguments and bases without bound, and the recursion's end depends on the order of entries and names.", "anchors": ["src/clReflectScan/ASTConsumer.cpp:ParseTemplateSpecialisation", "src/clReflectScan/ASTConsumer.cpp:ParseBaseClass", "src/clReflectScan/ASTConsumer.cpp:GetParameterInfo"]}
{"id": "C68", "title": "Functions are recorded whole or not at all", "statement": "A function or method that clscan adds has all its parameters in order, numbered, with names and types, `this` first for methods that are not static, and its return type; all carry the unique number computed from the parameters. A function one of whose types cannot be recorded leaves no function and no parameter behind, and a function all of whose types can be recorded is added.", "quantifier": "every function and method declaration, every database so far", "why_tests_cant": "Any parameter of any number of them may be the one that fails.", "anchors": ["src/clReflectScan/ASTConsumer.cpp:MakeFunction", "src/clReflectScan/ASTConsumer.cpp:AddFunctionDecl", "src/clReflectScan/ASTConsumer.cpp:AddMethodDecl"]}
{"id": "C69", "title": "Fields of classes have their offset in the class", "statement": "Each field of a reflected class, also those of anonymous structs and unions in it, is recorded with its type and its offset in bytes from the beginning of the class.", "quantifier": "every class layout with anonymous structs and unions nested to any depth", "why_tests_cant": "Anonymous structs nest without bound; a wrong offset corrupts memory silently.", "anchors": ["src/clReflectScan/ASTConsumer.cpp:AddFieldDecl", "src/clReflectScan/ASTConsumer.cpp:AddContainedDecls", "src/clReflectScan/ASTConsumer.cpp:AddClassDecl"]}
{"id": "C70", "title": "Enum constants have their values", "statement": "Every enum is recorded with all its constants in order, each under its own name and with the value it has in the program.", "quantifier": "every enum, every underlying type, every value", "why_tests_cant": "Values range over 64 bits and widths of the underlying type.", "anchors": ["src/clReflectScan/ASTConsumer.cpp:AddEnumDecl"]}
{"id": "C71", "title": "The generated GetType returns the type it is asked for", "statement": "In the files clmerge generates, GetType<T>, GetTypeNameHash<T> and clcppTypeHash<T> are specialised once for every built-in type, class and enum of the database that is not nested in a class, under its qualified name, and for nothing else; after initialisation GetType<T> is the type the database has for T's own name hash, the two others are that hash, and only elements of the generated array are used.", "quantifier": "every database", "why_tests_cant": "The files are generated from databases of any size; indexes, namespaces and guards must agree for all of them.", "anchors": ["src/clReflectMerge/CodeGen.cpp:GenGetTypes", "src/clReflectMerge/CodeGen.cpp:GenGetTypesConstexpr", "src/clReflectMerge/CodeGen.cpp:GenerateCppFile", "src/clReflectMerge/CodeGen.cpp:GenerateHFile"]}
{"id": "C72", "title": "clmerge writes the merge of all its inputs or changes nothing", "statement": "Run on existing database files, text or binary, clmerge ends with exit code 0 and leaves in the output file a database that reads back as the merge of all inputs in the order given, with every symbol of every input and none besides, and that can be merged or exported again; other files are untouched. Otherwise it ends with exit code 1 and no file is touched; an input that is missing or is not a database is never passed over.", "quantifier": "every command line, every set of files, every list of databases", "why_tests_cant": "Ranges over all databases, any number of inputs in either format and all command lines.", "anchors": ["src/clReflectMerge/Main.cpp:main", "src/clReflectCore/DatabaseTextSerialiser.cpp:WriteTextDatabase", "src/clReflectCore/DatabaseBinarySerialiser.cpp:ReadBinaryDatabase"]}
{"id": "C73", "title": "From the scanner's databases to lookups at runtime", "statement": "When the databases of any number of translation units go through clmerge and the result through clexport, both end with exit code 0, and the saved database answers lookups for all of them together: a type is found by name exactly when some translation unit has it; a field of a class exactly when some translation unit has the field and some, possibly another one, has its type; a function of a class or namespace exactly when some has it and the types of its parameters and return value are known to some; an enum constant exactly when some has it. clexport saves nothing when it fails.", "quantifier": "every list of databases in text or binary files, every name looked up, every class, enum and namespace", "why_tests_cant": "Ranges over all sets of databases and all names; a symbol lost in one of the four steps only shows at runtime.", "anchors": ["src/clReflectMerge/Main.cpp:main", "src/clReflectExport/Main.cpp:main", "src/clReflectExport/CppExport.cpp:BuildCppExport", "src/clReflectCpp/clcpp.cpp:FindPrimitive"]}
{"id": "C74", "title": "A database holds exactly what was put into it", "statement": "After any history of calls of GetName, AddPrimitive, AddContainerInfo and AddTypeInheritance on a new database, with sizes written to classes found in it, the table of every kind of primitive holds exactly the primitives added of that kind, as often as they were added, ordered by name hash and under one name in the order of the calls, so that GetFirstPrimitive returns the first one added; the names are exactly the texts given; of several descriptions of one container, or inheritances under one name, the last one counts; of several descriptions of one array the first, unless it is described as a container; the size of a class is the last one written to it. An assertion fails exactly when a primitive without a name is added or two different texts with one hash are given. If all names used come from the database and all values fit the text format, the database survives being written as text and read again.", "quantifier": "every sequence of calls, of any length, with any arguments", "why_tests_cant": "Ranges over all histories of calls; order and multiplicity only go wrong for particular interleavings of names and hashes.", "anchors": ["src/clReflectCore/Database.h:AddPrimitive", "src/clReflectCore/Database.h:GetFirstPrimitive", "src/clReflectCore/Database.cpp:GetName", "src/clReflectCore/Database.cpp:AddContainerInfo", "src/clReflectCore/Database.cpp:AddTypeInheritance"]}
{"id": "C75", "title": "Iterators visit C arrays exactly and own their implementation", "statement": "Iterating over a C array field with a ReadIterator or a WriteIterator gives its elements, each once, in order, inside the array, and fails an assertion if more are asked for than there are. An iterator constructs the implementation for its container once and destroys it once; an iterator that found no implementation, or was never initialised, does nothing.", "quantifier": "every element type and size, every count, every address, every number of steps; every sequence of Initialise calls", "why_tests_cant": "Ranges over all sizes and counts and all orders of calls; a wrong destructor call on unused iterators is undefined and may go unnoticed.", "anchors": ["src/clReflectCpp/Containers.cpp:ArrayReadIterator", "src/clReflectCpp/Containers.cpp:ArrayWriteIterator", "src/clReflectCpp/Containers.cpp:ReadIterator::Initialise", "src/clReflectCpp/Containers.cpp:WriteIterator::Initialise", "inc/clcpp/Containers.h:Iterator"]}
{"id": "C76", "title": "Function arguments are loaded from a JSON list in call order", "statement": "Building the parameters of a function from a JSON list makes one object per parameter, in the order of the call whatever order the database lists the parameters in, holding the value at that place in the list; everything that was in memory before is untouched. A text that is not a list, or a list with too few values, is refused.", "quantifier": "every function of up to 16 parameters, every parameter type, every list of saved values with any white space, every memory", "why_tests_cant": "Ranges over all signatures, all orders in which a database may list parameters, and all values; a swapped pair of arguments of the same type is only visible for some.", "anchors": ["src/clReflectUtil/SerialiseFunction.cpp:clutl::BuildParameterObjectCache_JSON", "src/clReflectUtil/SerialiseJSON.cpp:clutl::LoadJSON"]}
{"id": "C77", "title": "What is logged reaches every stream set for it", "statement": "Every message logged under a name and tag goes, whole and in the order of the calls, to each stream that was set for that name and tag, and is in the file when the call returns; streams of other names and tags get nothing of it; logging never fails.", "quantifier": "every history of setting streams, logging, indenting and unindenting, over any names, tags, files and texts", "why_tests_cant": "Ranges over all orders of calls; messages of different tags overwrite each other in a file depending on their lengths.", "anchors": ["src/clReflectCore/Logging.cpp:logging::Log", "src/clReflectCore/Logging.cpp:logging::SetLogToFile", "src/clReflectCore/Logging.cpp:logging::SetLogToStdout", "src/clReflectCore/Logging.cpp:FileStream", "src/clReflectCore/Logging.cpp:logging::PushIndent"]}
{"id": "C78", "title": "A module's library is loaded exactly as long as the module", "statement": "A library loaded by a module stays loaded until the module is destroyed and is released then, once; no library is used that is not loaded; the reflection database of a module is the one its library gives, or null.", "quantifier": "every history of creating, loading, querying, copying and destroying any number of modules over any files", "why_tests_cant": "Ranges over all histories and all sharing of libraries between modules; leaks and double releases are not observable in a single run.", "anchors": ["src/clReflectUtil/Module.cpp:clutl::Module::Load", "src/clReflectUtil/Module.cpp:clutl::Module::GetFunction", "src/clReflectUtil/Module.cpp:clutl::Module::~Module"]}
{"id": "C79", "title": "Calling a reflected function hands over its arguments", "statement": "Calling a function with a list of parameters calls it once, with each argument's bytes where its calling convention expects them and the stack as before afterwards; with a wrong number of parameters nothing is called and this is reported; nothing outside the arguments is read.", "quantifier": "every list of parameters of any sizes, by value, pointer or reference, with or without this, and every memory", "why_tests_cant": "Ranges over all signatures and sizes; a wrong place shows only with several arguments of odd sizes, and an over-read only at the end of a block.", "anchors": ["src/clReflectUtil/SerialiseFunction.cpp:CallFunction_x86_32_msvc", "src/clReflectUtil/SerialiseFunction.cpp:clutl::CallFunction_x86_32_msvc_cdecl", "src/clReflectUtil/SerialiseFunction.cpp:clutl::CallFunction_x86_32_msvc_thiscall", "inc/clcpp/FunctionCall.h:clcpp::CallFunction"]}
{"id": "C80", "title": "Container specs reach the database", "statement": "After scanning any files, what the database says about a container is exactly what the last use of clcpp_container_iterators for it says; iterators named there are reflected partially; nothing else is described as a container, but fields that are arrays.", "quantifier": "every list of source files, every sequence of declarations and macro uses in them, all names", "why_tests_cant": "Ranges over all names and orders; the texts are cut at a character that names may contain.", "anchors": ["src/clReflectScan/ReflectionSpecs.cpp:ReflectionSpecs::Gather", "src/clReflectScan/ReflectionSpecs.cpp:GetReflectionSpec", "inc/clcpp/clcpp.h:clcpp_container_iterators", "src/clReflectScan/Main.cpp:main"]}
{"id": "C81", "title": "clscan writes one database for all its files in the format asked for", "statement": "clscan either reports failure and changes no file, or writes exactly the output: text if its name ends with .csv and binary otherwise, and the other tools read from it the database of all files, in which each symbol is once and each file was scanned by its own specs.", "quantifier": "every list of source files, every walk over them, every output name and file system", "why_tests_cant": "Ranges over all file names and all combinations of files; the faults need certain lengths of names or several files.", "anchors": ["src/clReflectScan/Main.cpp:main", "src/clReflectScan/Main.cpp:EndsWith", "src/clReflectScan/Main.cpp:WriteDatabase", "src/clReflectCore/Database.cpp:cldb::Database::AddBaseTypePrimitives"]}
{"id": "C82", "title": "Memory of loaded databases is kept while needed and given back once", "statement": "Over any history of creating, loading, asking and ending runtime databases, each loaded database holds one block of the allocator of its load, shared with no other; the block stays in use and has what the load read until the database ends, when it and no other is given back to that allocator; loads that fail leave nothing behind.", "quantifier": "every sequence of operations on any number of databases, allocators and files of any content", "why_tests_cant": "Ranges over all histories and all files, including truncated ones.", "anchors": ["src/clReflectCpp/clcpp.cpp:clcpp::Database::Load", "src/clReflectCpp/clcpp.cpp:clcpp::Database::~Database", "src/clReflectCpp/clcpp.cpp:LoadMemoryMappedDatabase", "src/clReflectCpp/clcpp.cpp:ReadArray", "inc/clcpp/clcpp.h:IAllocator"]}
{"id": "C83", "title": "Map files are read as a whole", "statement": "From a map file of each supported linker clexport takes the address the program prefers to be loaded at, and looks up exactly the functions that the file's table of symbols lists, in order and with their addresses; the rest of the file changes nothing, and a file of another format changes nothing at all.", "quantifier": "every file with any number of sections, symbols and other lines, any demangler, any database", "why_tests_cant": "Ranges over all files of linkers; the faults need certain texts in the reflected program or other versions of the linker.", "anchors": ["src/clReflectExport/MapFileParser.cpp:ParseMacGCCMapFile", "src/clReflectExport/MapFileParser.cpp:ParseLinuxGCCMapFile", "src/clReflectExport/MapFileParser.cpp:ParseMSVCMapFile", "src/clReflectExport/MapFileParser.cpp:ParseGCCMapFile", "src/clReflectCore/FileUtils.cpp:ReadLine"]}
{"id": "C84", "title": "A loaded database is the exported one, byte for byte", "statement": "The memory image of any exported database whose pointers all lead somewhere can be saved, and loading the file at any address gives memory that holds the same database: every member of every object at its place in the published structs, every pointer the address of what it pointed to, every primitive with its database, every function at its address in the loaded module. The runtime's look-ups, reading only that memory, end and find a type, child, namespace, template, function or name exactly when the database has it.", "quantifier": "every database, every placement of its objects in memory without overlaps, every address of the image when built and when loaded, every load address of the module, every contents of padding, every name looked up", "why_tests_cant": "Ranges over all databases, all placements and all pairs of addresses; a test sees the layouts and addresses of a few runs.", "anchors": ["src/clReflectExport/CppExport.cpp:SaveCppExport", "src/clReflectExport/PtrRelocator.cpp:PtrRelocator::AddPointers", "src/clReflectExport/PtrRelocator.cpp:PtrSchema", "src/clReflectCpp/clcpp.cpp:LoadMemoryMappedDatabase", "src/clReflectCpp/clcpp.cpp:FindPrimitive", "src/clReflectCpp/clcpp.cpp:Database::GetName", "src/clReflectCpp/clcpp.cpp:Database::GetType", "inc/clcpp/clcpp.h:DatabaseMem"]}
{"id": "C85", "title": "The file clexport writes holds the database that was exported", "statement": "For any database that clexport can export, the memory it takes from its arena for names, texts, tables and arrays does not overlap and is large enough; the file it writes can be loaded at any address, and the loaded memory holds that database: every object with every member, linked, every name and text, every function at its address in the module as loaded. With a map file, the addresses are those of the map file. A database over five megabytes stops the exporter.", "quantifier": "every database with everything it refers to, every address of the arena and contents of it, every address the file is loaded at, every load address of the module", "why_tests_cant": "Ranges over all databases, all arena addresses and all load addresses; a test sees a few of each.", "anchors": ["src/clReflectExport/CppExport.cpp:BuildCppExport", "src/clReflectExport/CppExport.cpp:SaveCppExport", "src/clReflectExport/StackAllocator.h:StackAllocator", "src/clReflectExport/Main.cpp:main", "src/clReflectCpp/clcpp.cpp:LoadMemoryMappedDatabase"]}
{"id": "C86", "title": "What the scanner recorded is what the program reads in memory", "statement": "The databases of any number of translation units are merged by clmerge, the result is exported by clexport, and the file is loaded at any address. Reading only that memory, the program finds by name exactly the types, fields, methods, enum constants, namespaces and functions that some translation unit declares, and reads of them what the translation units say: names and their texts, kinds, field offsets, qualifiers and types, constant values, parents; base types, method parameters and return values, attributes and sizes are those of the translation units.", "quantifier": "every list of databases without hash collisions whose merge can be exported, every command line of this form, every arena and every load address, every name looked up", "why_tests_cant": "Composes three programs over all databases and all addresses.", "anchors": ["src/clReflectMerge/Main.cpp:main", "src/clReflectMerge/DatabaseMerge.cpp:MergeDatabases", "src/clReflectExport/Main.cpp:main", "src/clReflectExport/CppExport.cpp:BuildCppExport", "src/clReflectExport/CppExport.cpp:SaveCppExport", "src/clReflectCpp/clcpp.cpp:Database::Load", "src/clReflectCpp/clcpp.cpp:Database::GetType", "src/clReflectCpp/clcpp.cpp:FindPrimitive"]}
{"id": "C87", "title": "Every member of every object of the database is in the memory a program loads", "statement": "For a database that clexport can export, the file loaded at any address is memory in which every object of the database sits at its own address in the table of its kind, and each of its members reads as the database says: names, kinds, parents, the arrays of scopes with exactly what they contain, attributes, flags and the flags classes inherit, base types, the global namespace, types, qualifiers and offsets of fields, sizes, values of constants and attributes, function addresses and identifiers, return values, template arguments, container counts.", "quantifier": "every database with everything it refers to, every arena and load address, every load address of the module, every object and member", "why_tests_cant": "Ranges over all databases, all objects in them and all addresses.", "anchors": ["src/clReflectExport/CppExport.cpp:BuildCppExport", "src/clReflectExport/CppExport.cpp:SaveCppExport", "src/clReflectCpp/clcpp.cpp:LoadMemoryMappedDatabase", "inc/clcpp/clcpp.h:Primitive"]}
{"id": "C88", "title": "Classes and template types know their constructors, types and fields their containers", "statement": "After an export, a class has as constructor and destructor the methods ConstructObject and DestructObject it has in the database, and none if it has none; a template type has the first functions of those names and becomes their parent, every other function keeps the parent it recorded; enums and plain types have neither. A container description belongs to the type of its name, or without one to every instance of the template of its name, or without one to the first field of that scoped name; where several apply, the last holds. Its two iterators are the types it names, or null if there is none.", "quantifier": "every database with everything it refers to, every class, template type, function, container, type and field", "why_tests_cant": "Ranges over all databases; which function is first and which container is last depends on the whole table, and names may be shared.", "anchors": ["src/clReflectExport/CppExport.cpp:FindClassConstructors", "src/clReflectExport/CppExport.cpp:FindTemplateTypeConstructors", "src/clReflectExport/CppExport.cpp:LinkContainerInfos", "src/clReflectExport/CppExport.cpp:LinkContainerIterator"]}
{"id": "C89", "title": "Addresses from the map file reach the loaded program", "statement": "clexport with a database and the map file of a Linux or macOS linker writes a file; a program that loads it, wherever it was loaded itself, finds every function of the database with the address of the last line of the map file that means it, relative to where the program is, functions that no line means with the address they had, every constructor and destructor function the map file has, and in each class pointers to its own. Nothing else of the database changes.", "quantifier": "every database, every map file with any number of lines, functions, constructors and other symbols in any order, every load address of program and data", "why_tests_cant": "Ranges over all databases and all linker outputs; overloads, const methods and repeated symbols interact, and relocation depends on both addresses.", "anchors": ["src/clReflectExport/MapFileParser.cpp:MapFileParser", "src/clReflectExport/MapFileParser.cpp:AddFunctionAddress", "src/clReflectExport/MapFileParser.cpp:AddClassImplFunction", "src/clReflectExport/Main.cpp:main", "src/clReflectExport/CppExport.cpp:SaveCppExport", "src/clReflectCpp/clcpp.cpp:Database::Load"]}
{"id": "C90", "title": "A scanned translation unit leaves in the database what it declares", "statement": "After clscan has walked a translation unit, the database holds, in the order of the declarations, the functions with their parameters and return values, the fields, enums and constants of every declaration that is reflected and supported, one namespace, class and template for every name declared, each in its scope, the size of every class that is defined, its base classes, every instance of a template that is used, an entry for every array, and the attributes; and nothing else.", "quantifier": "every translation unit (any tree of declarations of any size and depth, any types), any reflection specs, any set of template instances", "why_tests_cant": "Ranges over all trees of declarations, all types and all orders; what is recorded of one declaration depends on those before it.", "anchors": ["src/clReflectScan/ASTConsumer.cpp:ASTConsumer::WalkTranlationUnit", "src/clReflectScan/ASTConsumer.cpp:ASTConsumer::AddDecl", "src/clReflectScan/ASTConsumer.cpp:ASTConsumer::AddClassDecl", "src/clReflectScan/ASTConsumer.cpp:ASTConsumer::AddContainedDecls", "src/clReflectScan/ASTConsumer.cpp:ASTConsumer::AddFieldDecl", "src/clReflectScan/ASTConsumer.cpp:ASTConsumer::AddMethodDecl"]}
{"id": "C91", "title": "What C++ sources declare is what a program reads in memory", "statement": "The database clscan writes for a file has one entry for each reflected declaration, with its scope, type, modifiers, offset, size, value, parameters, template arguments, bases and attributes as declared, and none besides. Source files are scanned by clscan, each by itself, what it writes is merged by clmerge and exported by clexport, and the file is loaded at any address. If the files agree on what their names stand for, as those of one program do, the program finds in memory, by name, the types, fields, methods, enum constants, namespaces and functions that the files declare and that are reflected, and no others; and it reads of a class the size it is defined with, of a field its type, modifiers and offset, and of a constant its value.", "quantifier": "every number of source files, every tree of declarations in each, all reflection macros, all load addresses", "why_tests_cant": "Ranges over all programs and all ways to split them into files; the answer for one name depends on all files.", "anchors": ["src/clReflectScan/ASTConsumer.cpp:ASTConsumer::WalkTranlationUnit", "src/clReflectScan/Main.cpp:main", "src/clReflectMerge/Main.cpp:main", "src/clReflectExport/CppExport.cpp:BuildCppExport", "src/clReflectCpp/clcpp.cpp:clcpp::Database::Load", "src/clReflectCpp/clcpp.cpp:clcpp::Database::GetType"]}
{"id": "C92", "title": "The text log of an export lists the exported database", "statement": "With -cpp_log clexport writes a text file that lists the database it exports: every namespace, class, enum, function and template without a parent and, inside each, one level deeper, everything that belongs to it, with attributes, base types, types, modifiers, array sizes, parameters and values as the database has them; fields and parameters by offset, constants by value, everything else by hash. Native types, fields of unknown types and members with parameters of unknown types are left out. Nothing else is in the file, and no other file and not the standard output is touched. A file that can not be opened stays as it is.", "quantifier": "every database that can be exported whose names have at most 240 bytes and that is nested at most 126 deep, every printed form of floats, every order std::sort may give to equal offsets or values", "why_tests_cant": "Ranges over all databases and nestings; a missed or repeated entry shows only for the shape of database that causes it.", "anchors": ["src/clReflectExport/CppExport.cpp:WriteCppExportAsText", "src/clReflectExport/CppExport.cpp:LogPrimitive", "src/clReflectExport/CppExport.cpp:LogPrimitives", "src/clReflectExport/Main.cpp:main", "src/clReflectCore/Logging.cpp:logging::Log"]}
{"id": "C93", "title": "Loading JSON changes nothing outside the object, whatever the text", "statement": "Whatever bytes are given to clutl::LoadJSON - well-formed or not, with arrays that are too long, members that do not exist or values of the wrong kind - if the call returns, with or without an error, the only memory that differs from before is that of the object the text was loaded into and what was allocated for the elements of its containers.", "quantifier": "all texts, all types whose fields lie inside their classes, all objects and states of memory", "why_tests_cant": "Ranges over all texts, also hostile ones, and all nestings of types; a write outside needs the one combination of value and type that a test does not try.", "anchors": ["src/clReflectUtil/SerialiseJSON.cpp:LoadJSON", "src/clReflectUtil/SerialiseJSON.cpp:ParserValue", "src/clReflectUtil/SerialiseJSON.cpp:ParserArray", "src/clReflectUtil/SerialiseJSON.cpp:ParserObject", "src/clReflectCpp/Containers.cpp:WriteIterator"]}
{"id": "C94", "title": "Loading a versioned binary changes nothing outside the object, whatever the bytes", "statement": "Whatever bytes are given to clutl::LoadVersionedBinary - truncated, corrupted, with arrays that are too long, unknown fields or wrong sizes - the only memory that differs from before is that of the object loaded into and what was allocated for the elements of its containers, whether the call returns, stops at an assertion, reads past the end of the buffer or goes on for ever.", "quantifier": "all bytes and positions in the buffer, all types whose fields lie inside their classes, all objects and states of memory, after any number of steps", "why_tests_cant": "Ranges over all data, also hostile data, and all nestings of types, including executions that do not end.", "anchors": ["src/clReflectUtil/SerialiseVersionedBinary.cpp:LoadVersionedBinary", "src/clReflectUtil/SerialiseVersionedBinary.cpp:LoadObject", "src/clReflectUtil/SerialiseVersionedBinary.cpp:LoadContainer", "src/clReflectUtil/SerialiseVersionedBinary.cpp:LoadClassField", "src/clReflectCpp/Containers.cpp:WriteIterator"]}
{"id": "C95", "title": "Numbers in JSON are converted to the type of the field as C++ converts them", "statement": "Loading a JSON object whose members are integers, decimals, true, false or null into an object of a class gives each field of a native type the number converted to that type as C++ converts it: to bool by comparison with zero, between integers modulo the size, from decimals by leaving out the fraction, to float and double as the machine does. Pointers take the integer in their low four bytes, members the class does not have change nothing, and nothing else in memory changes.", "quantifier": "all texts of such objects in any layout, all classes of native fields with distinct name hashes, all states of memory, all platforms", "why_tests_cant": "Ranges over all numbers, types, member orders and repetitions.", "anchors": ["src/clReflectUtil/SerialiseJSON.cpp:LoadIntegerWithCast", "src/clReflectUtil/SerialiseJSON.cpp:LoadDecimalWithCast", "src/clReflectUtil/SerialiseJSON.cpp:ParserLiteralValue", "src/clReflectUtil/SerialiseJSON.cpp:ParserPair", "src/clReflectUtil/JSONLexer.cpp:LexerNumber"]}
{"id": "C96", "title": "An error of a JSON text says where it is", "statement": "When clutl::LoadJSON reports an error, its position is an offset in the text at which what its code says is wrong: a character no token begins with, an escape that is none, a digit that is missing, a keyword that goes on differently, an unfinished text, or a token that cannot be there. Its line is one more than the newlines outside strings before that position, and its column counts the characters since the last of them.", "quantifier": "all texts, also malformed ones, all types, objects and states of memory", "why_tests_cant": "Ranges over all malformed texts and every place where an error can be found.", "anchors": ["src/clReflectUtil/JSONLexer.cpp:SetError", "src/clReflectUtil/JSONLexer.cpp:IncLine", "src/clReflectUtil/JSONLexer.cpp:LexerNextToken", "src/clReflectUtil/JSONLexer.cpp:PopState", "src/clReflectUtil/SerialiseJSON.cpp:Expect", "inc/clutl/Serialise.h:JSONError"]}
{"id": "C97", "title": "The JSON text of an object is what the object holds", "statement": "If clutl::SaveJSON returns for an object, the text it has written is the text of the object: native integers in decimal, unsigned long long and (with EMIT_HEX_FLOATS) the bits of floating point numbers in lower case hexadecimal, enums by the names of their constants, classes member by member under the names of their fields - as declared or, with SORT_CLASS_FIELDS_BY_OFFSET, by increasing offset, base classes last, transient fields and pointers that cannot be mapped left out - and arrays, containers and dictionaries element by element from the addresses of the elements. White space is written only with FORMAT_OUTPUT.", "quantifier": "all types made of native types, enums, classes that are not transient, containers, dictionaries and pointers (lists of pointers if all are mapped), all objects, states of memory and options", "why_tests_cant": "Ranges over all values of all types, all nestings and all options.", "anchors": ["src/clReflectUtil/SerialiseJSON.cpp:SaveInteger", "src/clReflectUtil/SerialiseJSON.cpp:SaveHexInteger", "src/clReflectUtil/SerialiseJSON.cpp:SaveEnum", "src/clReflectUtil/SerialiseJSON.cpp:SaveContainer", "src/clReflectUtil/SerialiseJSON.cpp:SaveClassFields", "src/clReflectUtil/SerialiseJSON.cpp:SaveObject"]}
{"id": "C98", "title": "The versioned binary of an object is what the object holds", "statement": "If clutl::SaveVersionedBinary returns for an object, it has appended to the buffer one chunk (hash of the type's name, zero, number of bytes, bytes) and changed nothing before it. The bytes are determined by the object: the memory of a native value; the hash of the name of an enum's constant, or zero; for a class a chunk with the hashes of type and name for each field that is not transient, in order, then its base classes; and for C arrays, containers and dictionaries a header with the number, type hashes and sizes, followed by the elements in order, each after its key and, for classes, after its length.", "quantifier": "all types, objects, states of memory and contents of the buffer", "why_tests_cant": "Ranges over all values of all types and all nestings.", "anchors": ["src/clReflectUtil/SerialiseVersionedBinary.cpp:SaveObject", "src/clReflectUtil/SerialiseVersionedBinary.cpp:SaveClassField", "src/clReflectUtil/SerialiseVersionedBinary.cpp:SaveContainer", "src/clReflectUtil/SerialiseVersionedBinary.cpp:SaveEnum", "src/clReflectUtil/SerialiseVersionedBinary.cpp:ChunkHeaderWriter"]}
{"id": "C99", "title": "Objects live in their groups from creation to destruction", "statement": "clobj::CreateObject returns null and changes nothing for a null type, a type that is not a class and a class without registered constructor or destructor; otherwise it returns a new object with the given type and unique id that its group finds under that id until clobj::DestroyObject is called for it, after which no group finds it any more. No call of CreateObject, New or DestroyObject fails an assertion, is undefined or fails to return.", "quantifier": "all histories of creations and destructions of objects and of (nested) groups, wherever the allocator places them", "why_tests_cant": "Ranges over all histories over any number of groups, with addresses and ids used again.", "anchors": ["src/clReflectUtil/Objects.cpp:CreateObject", "src/clReflectUtil/Objects.cpp:DestroyObject", "src/clReflectUtil/Objects.cpp:AddObject", "src/clReflectUtil/Objects.cpp:RemoveObject", "inc/clutl/Objects.h:New"]}
{"id": "C100", "title": "Custom load and save functions cannot disturb the rest of a versioned binary", "statement": "For a class some of whose fields have save_vbin or load_vbin functions, clutl::SaveVersionedBinary writes one chunk per non-transient field, with the function's bytes in place of the field's value, and clutl::LoadVersionedBinary, with the same or a later version of the class, returns having consumed exactly those bytes whatever the functions write and however little or much they read: each load function is called before exactly the bytes saved for its field and what it stores stays, every other field gets its saved value, nothing else in memory changes.", "quantifier": "all classes with bases and fields of supported types, all custom functions, all object values, all versions, all surrounding bytes and memories", "why_tests_cant": "Ranges over arbitrary user functions, byte strings and pairs of class versions.", "anchors": ["src/clReflectUtil/SerialiseVersionedBinary.cpp:SaveClassField", "src/clReflectUtil/SerialiseVersionedBinary.cpp:LoadClassField", "src/clReflectUtil/SerialiseVersionedBinary.cpp:LoadClass"]}
{"id": "C101", "title": "load_json and post_load functions are called for the right objects at the right time", "statement": "clutl::LoadJSON with classes that have load_json or post_load attributes: a member whose class has a load_json function is given to that function, once, with the token of the value and the address of the field, and the function alone decides what is stored; any other member is loaded as without functions; after the members of an object the post_load function of its class is called, once, with the object; this holds at any depth and in the order of the text, and no error is reported. Whatever the text, loading ends, and if each function only changes the object it is given nothing outside the loaded object changes. Classes without such functions are loaded as ever.", "quantifier": "all classes, all load_json and post_load functions, all JSON texts, all memories", "why_tests_cant": "Ranges over arbitrary user functions, nested texts and classes.", "anchors": ["src/clReflectUtil/SerialiseJSON.cpp:ParserValue", "src/clReflectUtil/SerialiseJSON.cpp:ParserObject", "src/clReflectUtil/SerialiseJSON.cpp:LoadJSON"]}
{"id": "C102", "title": "save_json and pre_save functions are called for the right objects at the right time, and load_json undoes save_json", "statement": "clutl::SaveJSON with classes that have save_json or pre_save attributes: of an object whose class has a save_json function nothing is written but the token the function makes of it (a string in quotes, an integer in decimal, a decimal by its bits or by the library's format); a token of any other kind is refused. Of any other object the pre_save function of its class is called, once, before the first member is looked at, and each member is written as SaveJSON writes it from the memory left by the members before. Transient classes write nothing and call nothing. If the save_json and load_json functions of the classes of an object's fields are inverse to each other, loading the saved text into another object restores every saved field, and changes nothing else. Classes without such functions are saved as ever, and saving changes no memory.", "quantifier": "all classes, all save_json, pre_save, load_json and post_load functions, all objects and memories, all save options", "why_tests_cant": "Ranges over arbitrary user functions, classes and values.", "anchors": ["src/clReflectUtil/SerialiseJSON.cpp:SaveClass", "src/clReflectUtil/SerialiseJSON.cpp:SaveObject", "src/clReflectUtil/SerialiseJSON.cpp:SaveContainer", "src/clReflectUtil/SerialiseJSON.cpp:SaveJSON", "src/clReflectUtil/SerialiseJSON.cpp:LoadJSON"]}
{"id": "C103", "title": "Functions of fields at any depth are used in the versioned binary, and objects that have them come back", "statement": "clutl::SaveVersionedBinary and LoadVersionedBinary with fields that have save_vbin and load_vbin attributes, in any class that is saved: the outermost one, its base classes, the classes of its fields, and those of the elements of containers, dictionaries and C arrays. The chunk of such a field holds what the function wrote, and nothing else, and all other fields are saved as ever. If the functions of each field are inverse to each other, loading what was saved into another object restores all fields that are not transient, those with functions and those without, reads exactly the bytes that were saved, however many the functions have read, and changes nothing else in memory. If classes have changed in between, at any depth, the fields that both versions have, with a function or the same type, are restored in the same way, and the others stay as they were. Without functions nothing changes.", "quantifier": "all classes, all functions of fields, all objects and memories, all nesting depths and container sizes", "why_tests_cant": "Ranges over arbitrary user functions, nested classes and values.", "anchors": ["src/clReflectUtil/SerialiseVersionedBinary.cpp:SaveClassField", "src/clReflectUtil/SerialiseVersionedBinary.cpp:SaveObject", "src/clReflectUtil/SerialiseVersionedBinary.cpp:FindFieldsRecursive", "src/clReflectUtil/SerialiseVersionedBinary.cpp:LoadClassField", "src/clReflectUtil/SerialiseVersionedBinary.cpp:LoadObject"]}
