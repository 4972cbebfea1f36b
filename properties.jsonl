{"id": "C01", "title": "File preamble acceptance", "statement": "Loading a Corda file of at least eight bytes succeeds exactly when (the configuration says to ignore the header, or the first seven bytes are 'corda',1,0) and the eighth byte is 0, 1 or 2; otherwise it throws. The reported encoding is the eighth byte.", "quantifier": "every byte string of at least 8 and fewer than 2^63 bytes and both header-checking configurations", "why_tests_cant": "256^8 preambles and unbounded tails; acceptance boundaries (encoding 2 vs 3, one wrong header byte) cannot be enumerated", "anchors": ["libs/amqp/src/CordaBytes.cxx: CordaBytes::CordaBytes(const std::string &, const AMQPConfig &)", "libs/amqp/include/AMQPHeader.h", "libs/amqp/include/AMQPSectionId.h"]}
{"id": "C02", "title": "Loaded payload is exactly the bytes after the preamble", "statement": "After a successful load of a file of at least eight bytes, size() is the file length minus eight and bytes() is exactly the remaining content of the file, in order.", "quantifier": "every byte string of at least 8 and fewer than 2^63 bytes that loads, every configuration that names an existing header", "why_tests_cant": "content and length are unbounded", "anchors": ["libs/amqp/src/CordaBytes.cxx: CordaBytes ctor, size, bytes"]}
{"id": "C03", "title": "Files too short to carry a preamble are rejected", "statement": "Loading a file shorter than eight bytes throws and never reads indeterminate memory or requests a wrapped-around buffer size.", "quantifier": "every byte string of length 0..7, both configurations", "why_tests_cant": "the outcome depends on uninitialised memory, so a passing test says nothing about the next run", "anchors": ["libs/amqp/src/CordaBytes.cxx: CordaBytes ctor (m_size, encoding)"]}
{"id": "C04", "title": "Saving then loading gives back the payload", "statement": "For every payload, writing it with toFile and loading the file with the default configuration succeeds, reports the plain-data encoding and returns the identical payload bytes; bytes made in memory report the same encoding, size and bytes before they are saved.", "quantifier": "every payload byte string with fewer than 2^63 - 8 bytes", "why_tests_cant": "unbounded payloads; the writer and reader are separate code that must agree on the preamble length and content", "anchors": ["libs/amqp/src/CordaBytes.cxx: toFile, CordaBytes ctor"]}
{"id": "C05", "title": "List type names decompose", "statement": "For every well-formed type name T, decomposing \"java.util.List<T>\" yields exactly (\"java.util.List\", T) with T replaced by its primitive if it is a java.lang wrapper, even when T itself contains nested '<', '>' and ','.", "quantifier": "all generic type names of fewer than 2^63 characters, to any nesting depth", "why_tests_cant": "type nesting is unbounded", "anchors": ["libs/amqp/src/schema/SchemaUtils.cxx: listType"]}
{"id": "C06", "title": "Map type names decompose at the right comma", "statement": "For every pair of well-formed type names K and V, decomposing \"java.util.Map<K, V>\" (with or without the space) yields (\"java.util.Map\", K, V): with K and V replaced by primitives where they are java.lang wrappers; the split happens at the comma separating key and value, never inside a nested generic.", "quantifier": "all pairs of generic type names, to any nesting depth, of fewer than 2^63 characters together", "why_tests_cant": "nesting depth is unbounded; an off-by-one in the depth counter only shows on some nestings", "anchors": ["libs/amqp/src/schema/SchemaUtils.cxx: mapType"]}
{"id": "C07", "title": "Nested generic types are enumerated in pre-order", "statement": "For every well-formed generic type built from lists and maps over leaf names, the list of nested types returned for its rendered name is exactly the pre-order listing of the proper sub-types of the type tree.", "quantifier": "all type trees built from leaf names, List and Map, rendered in fewer than 2^63 characters", "why_tests_cant": "trees of unbounded depth", "anchors": ["libs/amqp/src/schema/SchemaUtils.cxx: nestedGenericTypes"]}
{"id": "C08", "title": "Array detection is total and means an array suffix", "statement": "For every string, asking whether a type name is an array terminates normally (no out-of-bounds read) and answers true exactly when the name ends in \"[]\" or \"[p]\".", "quantifier": "every string", "why_tests_cant": "failure shows only on strings of length 0..2 with particular endings and reads memory outside the string", "anchors": ["libs/amqp/src/schema/SchemaUtils.cxx: isArray", "libs/amqp/src/schema/restricted-types/Array.cxx: Array::isArrayType"]}
{"id": "C09", "title": "Unboxing of Java types", "statement": "unbox maps exactly the eight java.lang wrapper names to their primitive names, leaves every other name unchanged, and applying it twice is the same as applying it once.", "quantifier": "every string", "why_tests_cant": "the domain is all strings; idempotence is a universally quantified equation", "anchors": ["libs/amqp/src/schema/SchemaUtils.cxx: unbox, boxedToUnboxed"]}
{"id": "C10", "title": "Boxed element types of arrays and containers are readable", "statement": "Every primitive element type name that schema parsing can produce from a java.lang wrapper (Integer, Boolean, Byte, Short, Character, Float, Long, Double) has a reader, so a container of that element type can be inspected.", "quantifier": "all eight wrapper types", "why_tests_cant": "the unboxing table and the reader table are separate and must agree on every entry", "anchors": ["libs/amqp/src/schema/SchemaUtils.cxx: boxedToUnboxed", "libs/amqp/src/serialiser/SerialiserFactoryInternal.h: makePropertyReader", "libs/amqp/src/schema/descriptors/corda-descriptors/RestrictedDescriptor.cxx: makePrim"]}
{"id": "C11", "title": "Type ordering keeps every type exactly once", "statement": "Whatever dependency answers (0, 1 or 2) the types give about each other, after any sequence of insertions the ordered type collection contains exactly the inserted types, each as many times as it was inserted, and every insertion terminates.", "quantifier": "every finite sequence of insertions and every dependency relation (including inconsistent and cyclic ones)", "why_tests_cant": "the insertion algorithm recursively removes and re-inserts elements; all interleavings of moves cannot be enumerated", "anchors": ["libs/amqp/src/schema/OrderedTypeNotations.h: insert, insertNewList"]}
{"id": "C12", "title": "Type ordering has no empty levels", "statement": "After any sequence of insertions every level of the ordered type collection is non-empty, and the collection is empty only if nothing was inserted.", "quantifier": "every finite sequence of insertions and every dependency relation", "why_tests_cant": "levels are created and drained by recursive re-insertion", "anchors": ["libs/amqp/src/schema/OrderedTypeNotations.h: insert, insertNewList"]}
{"id": "C13", "title": "Types are ordered after the types they need", "statement": "When the dependency relation is acyclic and is answered consistently, then after inserting the types in any order every type comes in a strictly later level than every type it needs.", "quantifier": "every acyclic dependency relation and every insertion order", "why_tests_cant": "number of relations and insertion orders is exponential; small orders pass while some larger ones fail", "anchors": ["libs/amqp/src/schema/OrderedTypeNotations.h: insert", "libs/amqp/src/schema/described-types/Schema.cxx"]}
{"id": "C14", "title": "Dependency answers are antisymmetric", "statement": "For any two schema types, if asking the first about the second reports 'the other must come after me' then asking the second about the first reports 'the other must come before me', and vice versa; 'unrelated' is symmetric.", "quantifier": "all pairs of composite, list, map, array and enum schema types", "why_tests_cant": "sixteen kind pairings times unbounded field lists and names", "anchors": ["libs/amqp/src/schema/restricted-types/Array.cxx, List.cxx, Map.cxx, Enum.cxx: dependsOn*", "libs/amqp/src/schema/described-types/Composite.cxx: dependsOnRHS"]}
{"id": "C15", "title": "Dependency answers reflect use", "statement": "A list, map, array or composite type that names another type as its element, key, value or field type is reported as having to come after that type, for all combinations of kinds.", "quantifier": "all pairs of schema types where one directly mentions the other", "why_tests_cant": "every kind pairing has its own hand-written function", "anchors": ["libs/amqp/src/schema/restricted-types/*.cxx: dependsOn*", "libs/amqp/src/schema/described-types/Composite.cxx: dependsOnRHS"]}
{"id": "C16", "title": "Schema lookup by name and by descriptor agree", "statement": "In a built schema, looking a type up by its name or by its descriptor finds a type with that name or descriptor whenever one was in the schema, and throws otherwise; with duplicate names the first in level order wins.", "quantifier": "every ordered collection of types and every query string", "why_tests_cant": "unbounded collections, duplicate keys", "anchors": ["libs/amqp/src/schema/described-types/Schema.cxx: Schema ctor, fromType, fromDescriptor"]}
{"id": "C17", "title": "Field classification is complete and exclusive", "statement": "For every field description with a non-empty type name, constructing the field yields: a primitive field iff the type is one of the eight primitive names; else an array field iff it has an array suffix; else, for type '*', a restricted field when its first requirement is a container, a custom field when there are no requirements, and an error otherwise; else a composite field. The name, type and flags are preserved, and the field reports its own class in text and in value.", "quantifier": "every name, type, requires list and flags", "why_tests_cant": "unbounded strings and requirement lists", "anchors": ["libs/amqp/src/schema/described-types/field-types/Field.cxx: Field::make, typeIsPrimitive"]}
{"id": "C18", "title": "Restricted type classification is complete", "statement": "For every restricted-type description, the constructed type is a list, map, enum or array exactly as its source and name dictate, its element types are the (unboxed) type arguments of its name, and any other source is rejected.", "quantifier": "every source, name and choice list", "why_tests_cant": "unbounded names", "anchors": ["libs/amqp/src/schema/restricted-types/Restricted.cxx: Restricted::make", "libs/amqp/src/schema/restricted-types/List.cxx, Map.cxx, Array.cxx, Enum.cxx: constructors"]}
{"id": "C19", "title": "Field description survives a schema round trip", "statement": "Reading back the encoding produced for a field description gives a field with the same name, type, requirements and flags as constructing that field directly.", "quantifier": "every name, type, requires list, default, label and flags", "why_tests_cant": "writer and reader are separate code over a positional seven-element list", "anchors": ["libs/amqp/src/schema/descriptors/corda-descriptors/FieldDescriptor.cxx: makeProton, build"]}
{"id": "C20", "title": "Composite description survives a schema round trip", "statement": "Reading back the encoding produced for a composite type gives a composite with the same name, label, provides, fingerprint and, in order, the same fields.", "quantifier": "every name, fingerprint, provides list and field list of any length", "why_tests_cant": "unbounded lists; writer and reader are separate code", "anchors": ["libs/amqp/src/schema/descriptors/corda-descriptors/CompositeDescriptor.cxx: makeProton, build"]}
{"id": "C21", "title": "Restricted description survives a schema round trip", "statement": "Reading back the encoding produced for a list or map type gives a restricted type with the same name (boxed names replaced by primitives), source and fingerprint.", "quantifier": "every name, source and fingerprint", "why_tests_cant": "unbounded strings; writer and reader are separate code", "anchors": ["libs/amqp/src/schema/descriptors/corda-descriptors/RestrictedDescriptor.cxx: makeProton, build, makePrim"]}
{"id": "C22", "title": "Whole schema survives the envelope round trip", "statement": "Reading back the envelope produced from a payload and a list of type descriptions yields the payload's fingerprint as the outer type and a schema containing exactly the described types, in the order the library puts them; if ordering them fails, reading fails in the same way.", "quantifier": "every list of well-formed composite and restricted descriptions and every described payload", "why_tests_cant": "unbounded lists; five mutually dependent readers and writers", "anchors": ["libs/amqp/src/schema/descriptors/corda-descriptors/EnvelopeDescriptor.cxx: makeProton, build", "libs/amqp/src/schema/descriptors/corda-descriptors/SchemaDescriptor.cxx: makeProton, build"]}
{"id": "C23", "title": "Malformed schemas are rejected, not misread", "statement": "Reading an envelope from any decoded AMQP tree either produces an envelope or throws; it never dereferences a null or wrongly-typed object.", "quantifier": "every AMQP data tree", "why_tests_cant": "hostile or corrupt inputs form an infinite set", "anchors": ["libs/amqp/src/schema/descriptors/AMQPDescriptors.h: dispatchDescribed", "libs/amqp/src/schema/descriptors/AMQPDescriptorRegistory.cxx", "libs/amqp/src/AMQPBlob.cxx: dumpContents"]}
{"id": "C24", "title": "Descriptor identifiers are validated", "statement": "A schema element reader accepts an element only when its descriptor is an unsigned long equal to that element's Corda identifier (0xc562 in the top 16 bits, element number at the bottom); any other descriptor makes it throw.", "quantifier": "every AMQP value and every element kind", "why_tests_cant": "2^64 identifiers and arbitrary values", "anchors": ["libs/amqp/src/schema/descriptors/AMQPDescriptors.cxx: validateAndNext", "libs/amqp/src/schema/descriptors/Descriptors.h", "libs/amqp/src/schema/descriptors/AMQPDescriptorRegistory.cxx: stripCorda, describedToString"]}
{"id": "C25", "title": "Inspection never changes the data", "statement": "Dumping a blob's contents, data or schema, or reading its envelope, leaves the AMQP tree unchanged whatever the outcome (value or exception).", "quantifier": "every AMQP tree, cursor position and outcome", "why_tests_cant": "must hold on all paths including every exception path", "anchors": ["libs/proton-wrapper: auto_enter, auto_next, auto_list_enter, auto_map_enter", "libs/amqp/src/AMQPBlob.cxx"]}
{"id": "C26", "title": "Inspection leaves the cursor where it started", "statement": "Reading an envelope from a tree returns the cursor to the node it started at, both on success and when an exception is thrown part-way, so the same blob can be inspected again with the same result.", "quantifier": "every well-formed envelope tree, and every exception point", "why_tests_cant": "exception points are all positions in the tree", "anchors": ["libs/proton-wrapper: auto_enter, auto_next, auto_list_enter, auto_map_enter", "libs/amqp/src/schema/descriptors/corda-descriptors/*.cxx: build", "libs/amqp/src/AMQPBlob.cxx: dumpContents, dumpData"]}
{"id": "C27", "title": "Type assertions reject exactly the wrong types", "statement": "Each attest_is_X check throws exactly when the current AMQP value is not of type X (or, when nulls are allowed, is neither X nor null).", "quantifier": "every AMQP value and every check", "why_tests_cant": "full matrix of checks and values; the string check's allow-null flag changes its meaning", "anchors": ["libs/proton-wrapper/src/proton_wrapper.cxx: attest_is_described, attest_is_int, attest_is_binary, attest_is_bool, attest_is_float, attest_is_long, attest_is_char, attest_is_double, attest_is_list, is_map, attest_is_string"]}
{"id": "C28", "title": "String reads return the value and always advance", "statement": "Reading a string-like value returns exactly its content for strings and symbols (and empty for null when tolerated), throws otherwise, and in every case moves on by exactly one element if there is one.", "quantifier": "every AMQP value, every position in a list, both tolerance settings", "why_tests_cant": "must hold for every position and on the exception path", "anchors": ["libs/proton-wrapper/src/proton_wrapper.cxx: readAndNext<std::string>, auto_next"]}
{"id": "C29", "title": "Writing is balanced", "statement": "Serialising any object graph has defined behaviour, adds exactly one element to the payload at the point of writing and leaves the write position at that element, for any nesting of composites, lists and maps.", "quantifier": "every value built from primitives, nulls, composites, lists and maps, to any depth", "why_tests_cant": "nesting depth is unbounded; an unbalanced enter/exit shows only at some depths", "anchors": ["libs/amqp/src/ModifiableAMQPBlobImpl.cxx: startComposite, endComposite, startRestricted, endRestricted", "libs/amqp/src/serializable/*.cxx", "libs/amqp/include/serializable/*.h"]}
{"id": "C30", "title": "Payload mirrors the object", "statement": "The payload written for an object is a described value whose descriptor is the object's fingerprint and whose body lists, in the order of writing, exactly the written properties (or elements, or alternating keys and values).", "quantifier": "every value built from primitives, nulls, composites, lists and maps, to any depth", "why_tests_cant": "unbounded structures", "anchors": ["libs/amqp/src/ModifiableAMQPBlobImpl.{h,cxx}", "libs/amqp/include/assembler/SerialiserFactoryWriters.h", "libs/amqp/include/serializable/SerializableVector.h, SerializableMap.h"]}
{"id": "C31", "title": "Every class written appears in the schema exactly once", "statement": "After serialising any object graph, the schema has exactly one entry for every (name, fingerprint) pair of a composite, list or map that was written, and no others.", "quantifier": "every object graph", "why_tests_cant": "sharing and recursion of classes in the graph are unbounded", "anchors": ["libs/amqp/src/ModifiableAMQPBlobImpl.cxx: startComposite, startRestricted, toBlob"]}
{"id": "C32", "title": "Every property written appears in its class's schema", "statement": "After serialising any object graph, the schema entry of a composite class lists every property name written for an instance of it, once, with the type recorded at the first write.", "quantifier": "every object graph, any number of instances per class", "why_tests_cant": "first-write-wins over arbitrary histories of instances", "anchors": ["libs/amqp/src/ModifiableAMQPBlobImpl.{h,cxx}: writePrimitive, writeComposite, writeRestricted, writeNull"]}
{"id": "C33", "title": "Object round trip", "statement": "For every object whose properties are primitives, pointers to primitives, nested objects or pointers to nested objects, deserialising the serialised blob with the same class gives back an equal object.", "quantifier": "every object of every such class shape, to any nesting depth", "why_tests_cant": "values and shapes are unbounded; the reader and writer are separate template families", "anchors": ["libs/amqp/include/assembler/*.h", "libs/amqp/src/serialiser/PrimToSerializer.h", "libs/amqp/src/AMQPBlob.cxx: readyPayload, startComposite, endComposite, endPrim"]}
{"id": "C34", "title": "Null pointers round trip", "statement": "A null pointer property (to a primitive or to an object) that was serialised is read back as a null pointer.", "quantifier": "every object with at least one null pointer property", "why_tests_cant": "position of the null among other properties is arbitrary", "anchors": ["libs/amqp/src/serialiser/PrimToSerializer.h: put, get", "libs/amqp/include/assembler/ReadPrimitive.h, ReadNonPrimitive.h"]}
{"id": "C35", "title": "Strings round trip byte for byte", "statement": "A string property is read back with exactly the bytes that were written, including NUL bytes.", "quantifier": "every byte string", "why_tests_cant": "the set of strings is infinite and the failing ones need a specific byte", "anchors": ["libs/amqp/src/serialiser/PrimToSerializer.h: PrimToSerialiser<std::string>::put, get"]}
{"id": "C36", "title": "Typed reads never misinterpret a value", "statement": "Reading a property as a C++ type either returns the AMQP value of the matching AMQP type or throws; it has no other outcome, whatever the payload holds.", "quantifier": "every AMQP value and every readable C++ primitive type", "why_tests_cant": "payloads come from outside; the failing combinations read invalid memory", "anchors": ["libs/amqp/src/serialiser/PrimToSerializer.h: get", "libs/amqp/include/assembler/ReadPrimitive.h"]}
{"id": "C37", "title": "Deserialising a blob is repeatable", "statement": "Deserialising the same blob object twice gives the same object both times.", "quantifier": "every serialised object", "why_tests_cant": "depends on the internal read position left behind by the first read, for every shape", "anchors": ["libs/amqp/src/AMQPBlob.cxx: readyPayload, endComposite", "libs/amqp/include/assembler/SerialiserFactory.h: deserialise"]}
{"id": "C38", "title": "Inspecting what was written shows what was written", "statement": "Inspecting a serialised object prints each property's name with that property's value. Violated unless the class writes its properties in alphabetical order: for an object of primitive values what is printed is exactly the alphabetical list of its properties paired with the list of its values in the order of writing, each value read as a value of the type of the property it is paired with; an object of integers is shown correctly if, and only if, its values are in the same order either way. Objects in objects, lists and maps are shown with exchanged properties just so, wherever the types of the properties fit.", "quantifier": "every object and every order in which its class writes its properties", "why_tests_cant": "property orders are factorially many; values unbounded", "anchors": ["libs/amqp/src/ModifiableAMQPBlobImpl.h: CompositeBlob", "libs/amqp/src/schema/descriptors/corda-descriptors/CompositeDescriptor.cxx: makeProton", "libs/amqp/src/serialiser/serialisers/reader/CompositeReader.cxx: _dump"]}
{"id": "C39", "title": "Inspected lists and arrays show every element in order", "statement": "Inspecting a list or array value prints exactly one entry per element, in order, for lists of any length including empty.", "quantifier": "every element list; with maps among the types, for call arguments evaluated left to right (C40)", "why_tests_cant": "length unbounded", "anchors": ["libs/amqp/src/serialiser/serialisers/reader/restricted-readers/ListReader.cxx, ArrayReader.cxx: dump_"]}
{"id": "C40", "title": "Inspected maps pair each key with its own value", "statement": "Inspecting a map value prints exactly one 'key : value' entry per pair, the key's text first, in order.", "quantifier": "every list of key/value pairs and every evaluation order the compiler may choose", "why_tests_cant": "C++ leaves the order of evaluation of the two reads unspecified", "anchors": ["libs/amqp/src/serialiser/serialisers/reader/restricted-readers/MapReader.cxx: dump_"]}
{"id": "C41", "title": "Inspecting an object prints all its fields", "statement": "Inspecting a composite value whose payload matches its schema prints one entry per schema field, in schema order, each produced by the reader for that field's type, and a null in a composite-typed field is shown as a null.", "quantifier": "every schema composite and every matching payload, to any nesting depth; with maps among the types, for call arguments evaluated left to right (C40)", "why_tests_cant": "field counts and nesting unbounded", "anchors": ["libs/amqp/src/serialiser/serialisers/reader/CompositeReader.cxx: _dump, dump"]}
{"id": "C42", "title": "Null elements inside containers can be inspected", "statement": "Inspecting a list whose elements are composites shows a null element as a null rather than failing; for primitive elements a null is shown as a null.", "quantifier": "every list with nulls at any positions", "why_tests_cant": "positions arbitrary", "anchors": ["libs/amqp/src/serialiser/serialisers/reader/restricted-readers/ListReader.cxx: dump_", "libs/amqp/src/serialiser/serialisers/reader/property-readers/*.cxx"]}
{"id": "C43", "title": "Readers exist for every type of a dependency-ordered schema", "statement": "Processing a schema in which every type comes after the types it needs, with all leaf types primitive or pre-registered, succeeds and afterwards every type of the schema is found by its name and by its descriptor.", "quantifier": "every such schema", "why_tests_cant": "schemas unbounded", "anchors": ["libs/amqp/src/assembler/CompositeFactoryInternal.cxx: process, processComposite, processRestricted, computeIfAbsent, byType, byDescriptor"]}
{"id": "C44", "title": "Missing types are reported", "statement": "Processing a schema that refers to a type that is not available at that point throws an error and never uses a null reader.", "quantifier": "every schema and every prior state of the factory", "why_tests_cant": "depends on the history of the factory object", "anchors": ["libs/amqp/src/assembler/CompositeFactoryInternal.cxx: processComposite, fetchReaderForRestricted, computeIfAbsent"]}
{"id": "C45", "title": "A factory can be reused for another blob", "statement": "Processing a schema with a factory that already processed other schemas gives the same readers as processing it with a fresh factory.", "quantifier": "every sequence of schemas", "why_tests_cant": "history dependent", "anchors": ["libs/amqp/src/assembler/CompositeFactoryInternal.cxx: computeIfAbsent, process"]}
{"id": "C46", "title": "Installed custom serialisers are used", "statement": "After installing a custom serialiser for a type name, processing any schema that does not itself define that type makes every field of that type use the custom serialiser.", "quantifier": "every schema and every installed name", "why_tests_cant": "schemas unbounded", "anchors": ["libs/amqp/src/assembler/CompositeFactoryInternal.cxx: installCustomSerialiser, processComposite"]}
{"id": "C47", "title": "Dump text formatting", "statement": "The text of any dumped value tree is the canonical rendering: pairs as 'name : value', objects as '{ a, b }', lists as '[ a, b ]', separated by ', ' with no leading or trailing separator, recursively.", "quantifier": "every value tree", "why_tests_cant": "unbounded trees", "anchors": ["libs/amqp/src/serialiser/serialisers/reader/Reader.cxx, Reader.h: dump, AutoMap, AutoList, dumpSingle, dumpPair"]}
{"id": "C48", "title": "Raw data dump of lists shows every element", "statement": "dumpData prints, for nested described lists of primitives and lists, every element in order, to any depth.", "quantifier": "every tree of described values, lists and primitives", "why_tests_cant": "unbounded trees", "anchors": ["libs/amqp/src/AMQPBlob.cxx: dumpPrimitive, dumpList, dumpDescribed, dumpData"]}
{"id": "C49", "title": "Raw data dump of maps pairs keys with values", "statement": "dumpData prints, for a map, exactly one entry 'key : value' per pair, with that pair's key and value.", "quantifier": "every map", "why_tests_cant": "unbounded maps", "anchors": ["libs/amqp/src/AMQPBlob.cxx: dumpMap"]}
{"id": "C50", "title": "Java type names contain no C++ scope operators", "statement": "The Java name derived from a C++ class name has every '::' replaced by '.', no '(anonymous namespace)::' prefix, and is otherwise unchanged.", "quantifier": "every text whose colons come in pairs, as in every demangled class name; that no '::' is left, for every text", "why_tests_cant": "the replacement loops run over strings of any length", "anchors": ["libs/corda-utils/include/types.h: javaTypeName"]}
{"id": "C51", "title": "Generated container names are understood by the schema reader", "statement": "The Java type name generated for a C++ vector or map type is taken apart by the schema reader into exactly the names of its component types, in pre-order.", "quantifier": "every C++ type built from classes, vectors and maps, to any nesting depth, with leaf names that are type names", "why_tests_cant": "name generation is template recursion and name parsing is string recursion; agreement on every nesting cannot be enumerated", "anchors": ["libs/corda-utils/include/types.h: javaTypeName, is_std_vector, is_std_map", "libs/amqp/src/schema/SchemaUtils.cxx: nestedGenericTypes"]}
{"id": "C52", "title": "Reading as another class is rejected", "statement": "Deserialising a blob as a class other than the one that was serialised (another name or fingerprint) throws.", "quantifier": "every object, every other class", "why_tests_cant": "classes are unbounded; a test only tries particular pairs", "anchors": ["libs/amqp/src/AMQPBlob.cxx: startComposite", "libs/amqp/include/assembler/SerialiserFactoryReaders.h"]}
{"id": "C53", "title": "Reading other properties than were written is rejected", "statement": "Deserialising a blob with a class that reads more or fewer properties than were written throws.", "quantifier": "every object and every number of missing or extra properties", "why_tests_cant": "all property lists of any length", "anchors": ["libs/amqp/include/assembler/SerialiserFactoryReaders.h: PropertyReader", "libs/amqp/src/AMQPBlob.cxx: startComposite, endComposite"]}
{"id": "C54", "title": "Container properties round trip", "statement": "A vector property that was serialised is read back by the same class with equal elements.", "quantifier": "every vector of every length at any place in a class", "why_tests_cant": "unbounded", "anchors": ["libs/amqp/include/assembler/ReadNonPrimitive.h", "libs/amqp/include/serializable/SerializableVector.h"]}
{"id": "C55", "title": "Deserialising never has undefined behaviour", "statement": "Deserialising any class from any AMQP tree, valid or not, returns an object or throws.", "quantifier": "every class shape and every AMQP tree", "why_tests_cant": "adversarial inputs are unbounded", "anchors": ["libs/amqp/include/assembler/SerialiserFactory.h: deserialise", "libs/amqp/src/serialiser/PrimToSerializer.h", "libs/amqp/src/AMQPBlob.cxx: readyPayload, startComposite"]}
{"id": "C56", "title": "A serialised object can be opened", "statement": "Reading the envelope of a serialised object built from primitives and other objects succeeds, gives the object's fingerprint as outer type, and a schema with exactly the classes that were written, each as described; for objects with containers the same holds whenever each description can be constructed.", "quantifier": "every such object to any nesting depth without pointers to characters, with type names that are not empty, ']', 'p]' or '*'", "why_tests_cant": "combines writer and reader for unbounded object graphs", "anchors": ["libs/amqp/src/ModifiableAMQPBlobImpl.cxx", "libs/amqp/src/schema/descriptors/corda-descriptors/EnvelopeDescriptor.cxx: build", "libs/amqp/src/schema/descriptors/corda-descriptors/SchemaDescriptor.cxx: build", "libs/amqp/src/AMQPBlob.cxx: dumpContents"]}
{"id": "C57", "title": "Inspecting a well-formed blob shows its contents", "statement": "For a blob whose envelope holds type descriptions that can be ordered so that each follows the types it needs, and a payload of one of these types, the blob inspector prints exactly the payload's text and leaves the data cursor where it was.", "quantifier": "every set of type descriptions, every value of any depth and size, every cursor position", "why_tests_cant": "composes schema reading, ordering, reader construction and reading over unbounded schemas and values", "anchors": ["libs/amqp/src/AMQPBlob.cxx: dumpContents", "bin/blob-inspector/BlobInspector.cxx: dump", "libs/amqp/src/assembler/CompositeFactoryInternal.cxx: process"]}
{"id": "C58", "title": "Raw data dump is safe on anything that claims to be an envelope", "statement": "dumpData on a described value whose descriptor carries the envelope number returns or throws, never has undefined behaviour, and leaves the data cursor where it was; on everything else it has undefined behaviour (null dereference or failed assertion).", "quantifier": "every AMQP tree and every cursor position", "why_tests_cant": "adversarial inputs are unbounded", "anchors": ["libs/amqp/src/AMQPBlob.cxx: dumpData, dumpDescribed, dumpList, dumpMap, dumpPrimitive"]}
{"id": "C59", "title": "Dumping the schema leaves the blob alone", "statement": "dumpSchema, in any of its forms and whatever the outcome, leaves the data and the data cursor as they were, so dumps can be repeated and mixed.", "quantifier": "every AMQP tree, every cursor position, every form", "why_tests_cant": "unbounded trees, including malformed ones", "anchors": ["libs/amqp/src/AMQPBlob.cxx: dumpSchema", "libs/amqp/src/schema/descriptors/AMQPDescriptor.cxx: readRaw, readAvro", "libs/amqp/src/schema/descriptors/corda-descriptors/"]}
{"id": "C60", "title": "The raw schema dump shows the whole schema", "statement": "The raw dump of an envelope is exactly the canonical text: every type and field in order, numbered and indented by level, with name, label, provided interfaces, source, fingerprint, type, requirements, default and flags.", "quantifier": "every payload, any number of types and fields, all names and texts, anything behind the schema; in particular every envelope this library writes", "why_tests_cant": "exact text for unbounded schemas", "anchors": ["libs/amqp/src/schema/descriptors/AMQPDescriptor.cxx: readRaw", "libs/amqp/src/schema/descriptors/corda-descriptors/CompositeDescriptor.cxx: readRaw", "libs/amqp/src/schema/descriptors/corda-descriptors/FieldDescriptor.cxx: readRaw", "libs/amqp/src/schema/descriptors/corda-descriptors/RestrictedDescriptor.cxx: readRaw", "libs/amqp/src/schema/descriptors/corda-descriptors/SchemaDescriptor.cxx: readRaw", "libs/amqp/src/schema/descriptors/corda-descriptors/ObjectDescriptor.cxx: readRaw", "libs/amqp/src/schema/descriptors/corda-descriptors/EnvelopeDescriptor.cxx: readRaw"]}
{"id": "C61", "title": "The raw schema dump depends on the blob alone", "statement": "Dumping the same blob in any form always gives the same text or the same failure, wherever the blob is and whatever surrounds it; of the payload the raw dump shows nothing but the length of its fingerprint.", "quantifier": "every blob, every form, every two cursors at it; every two payloads and continuations of the same length", "why_tests_cant": "a statement about all pairs of unbounded blobs", "anchors": ["libs/amqp/src/schema/descriptors/corda-descriptors/ObjectDescriptor.cxx: readRaw", "libs/amqp/src/AMQPBlob.cxx: dumpSchema", "libs/proton-wrapper/src/proton_wrapper.cxx: operator <<"]}
{"id": "C62", "title": "The raw schema dump determines the schema", "statement": "Two blobs with the same raw dump have the same schema.", "quantifier": "every two envelopes", "why_tests_cant": "a statement about all pairs of unbounded schemas", "anchors": ["libs/amqp/src/schema/descriptors/corda-descriptors/RestrictedDescriptor.cxx: readRaw", "libs/amqp/src/schema/descriptors/corda-descriptors/CompositeDescriptor.cxx: readRaw", "libs/amqp/src/schema/descriptors/corda-descriptors/FieldDescriptor.cxx: readRaw"]}
{"id": "C63", "title": "The Avro schema dump shows the classes", "statement": "The Avro dump of an envelope is exactly the prescribed text: each class as a record with name, package, fingerprint and its fields in order, each field with its type (nested lists, maps and arrays opened up, boxed types replaced); other types are left out.", "quantifier": "every payload, any number of types and fields, field types of any nesting depth, anything behind the schema", "why_tests_cant": "exact text for unbounded schemas and nested type names", "anchors": ["libs/amqp/src/schema/descriptors/AMQPDescriptor.cxx: readAvro", "libs/amqp/src/schema/descriptors/corda-descriptors/CompositeDescriptor.cxx: readAvro", "libs/amqp/src/schema/descriptors/corda-descriptors/FieldDescriptor.cxx: readAvro, inferType", "libs/amqp/src/schema/descriptors/corda-descriptors/SchemaDescriptor.cxx: readAvro", "libs/amqp/src/schema/descriptors/corda-descriptors/ObjectDescriptor.cxx: readAvro", "libs/amqp/src/schema/descriptors/corda-descriptors/EnvelopeDescriptor.cxx: readAvro"]}
{"id": "C64", "title": "The Avro schema dump is JSON", "statement": "The Avro dump, put in brackets, is a JSON text; it is the array of the records that describe the classes.", "quantifier": "every schema", "why_tests_cant": "well-formedness of generated text over unbounded schemas", "anchors": ["libs/amqp/src/schema/descriptors/corda-descriptors/FieldDescriptor.cxx: inferType", "libs/amqp/src/schema/descriptors/corda-descriptors/SchemaDescriptor.cxx: readAvro", "libs/amqp/src/schema/descriptors/corda-descriptors/CompositeDescriptor.cxx: readAvro"]}
{"id": "C65", "title": "Boxed types in type names become primitives", "statement": "A list, map, array or enumeration type is read with each boxed Java type in its name replaced by the primitive it stands for and nothing else in the name changed; the types of its elements likewise.", "quantifier": "every type name, containers nested to any depth", "why_tests_cant": "regular expressions applied to unbounded nested names", "anchors": ["libs/amqp/src/schema/descriptors/corda-descriptors/RestrictedDescriptor.cxx: regexs, makePrim, build"]}
{"id": "C66", "title": "Boxed and primitive names are interchangeable", "statement": "A blob whose schema uses boxed Java types in container names is shown by the inspector like the same blob with primitive names.", "quantifier": "every schema and value", "why_tests_cant": "relates two runs over unbounded schemas", "anchors": ["libs/amqp/src/schema/descriptors/corda-descriptors/RestrictedDescriptor.cxx: makePrim", "libs/amqp/src/assembler/CompositeFactoryInternal.cxx: process", "libs/amqp/src/schema/descriptors/corda-descriptors/FieldDescriptor.cxx: build"]}
{"id": "C67", "title": "Dumping a schema never has undefined behaviour", "statement": "Dumping the schema of any blob, in any form, gives a text or throws an exception; memory outside objects is never read, no null pointer is used and no assertion fails.", "quantifier": "every AMQP tree, well-formed or not, every position and every form", "why_tests_cant": "unbounded hostile inputs; undefined behaviour may go unnoticed in a test", "anchors": ["libs/amqp/src/schema/descriptors/AMQPDescriptor.cxx: readRaw, readAvro", "libs/amqp/src/schema/descriptors/AMQPDescriptorRegistory.cxx", "libs/amqp/src/schema/descriptors/corda-descriptors/FieldDescriptor.cxx: inferType", "libs/amqp/src/schema/descriptors/corda-descriptors/SchemaDescriptor.cxx: readAvro"]}
{"id": "C68", "title": "The tools print the dump and report success, or print no dump", "statement": "A tool exits with status 0 exactly if its arguments name a file holding a blob (header, plain encoding, payload that decodes completely) and the dump succeeds; the last thing it has written to standard output is then the dump and a line end (in front of it is only the debugging trace of the library, which goes to standard output too). The blob inspector accepts any seven bytes as header. A tool that returns any other status returns 1 and its own code has written nothing to standard output.", "quantifier": "every argument list, every file system content with files below 2^63 bytes, every decoder", "why_tests_cant": "ranges over all files and argument lists", "anchors": ["bin/data-dumper/main.cxx: main", "bin/schema-dumper/main.cxx: main", "bin/blob-inspector/main.cxx: main", "libs/amqp/src/AMQPBlob.cxx: AMQPBlob"]}
{"id": "C69", "title": "The tools end in an orderly way on any file", "statement": "Whatever the file contains, a tool ends by returning an exit status; it is never aborted by an exception or a failed assertion and has no undefined behaviour.", "quantifier": "every argument list, file content and decoder", "why_tests_cant": "ranges over all files, including hostile ones", "anchors": ["bin/data-dumper/main.cxx: main", "bin/schema-dumper/main.cxx: main", "bin/blob-inspector/main.cxx: main", "libs/amqp/src/AMQPBlob.cxx: AMQPBlob", "libs/amqp/src/schema/descriptors/corda-descriptors/FieldDescriptor.cxx: inferType"]}
{"id": "C70", "title": "A saved object is shown by the blob inspector", "statement": "An object with members of primitive types the inspector can show, written in alphabetical order of their names, serialised, saved with toFile and given to the blob inspector, is printed with its member names and values.", "quantifier": "every class and member name, any number of members, every value", "why_tests_cant": "end to end over unbounded objects", "anchors": ["bin/blob-inspector/main.cxx: main", "libs/amqp/src/CordaBytes.cxx: toFile", "libs/amqp/include/serializable/Serializable.h: serialise"]}
{"id": "C71", "title": "How a blob was encoded does not matter", "statement": "AMQP has short and wide forms of most values. Whatever forms were chosen, a blob decodes to the tree it encodes and all its bytes are used; no encoding is the beginning of another; a truncated encoding does not decode. Two files with the same eight first bytes and different encodings of the same tree are treated alike by all tools.", "quantifier": "every tree, every choice of forms at every place, every header and file name", "why_tests_cant": "the combinations of forms are unbounded", "anchors": ["libs/amqp/src/AMQPBlob.cxx: AMQPBlob", "bin/data-dumper/main.cxx: main", "bin/schema-dumper/main.cxx: main", "bin/blob-inspector/main.cxx: main"]}
{"id": "C72", "title": "Objects survive a file", "statement": "Whatever object is serialised, the result can be encoded (if its texts and numbers have the sizes C++ and AMQP give them). Saved in any encoding with toFile, loaded and read by its class, the values written come back (strings up to the first NUL); an object of primitive members in alphabetical order is shown by the blob inspector.", "quantifier": "every class shape, every object of it without null pointers and pointers to characters, every encoding below 2^62 bytes, every member value; that there is an encoding, for results whose widest form is below 2^32 bytes", "why_tests_cant": "end to end over unbounded objects and encodings", "anchors": ["libs/amqp/src/CordaBytes.cxx: CordaBytes, toFile", "libs/amqp/src/AMQPBlob.cxx: AMQPBlob", "libs/amqp/include/serializable/Serializable.h: serialise", "bin/blob-inspector/main.cxx: main"]}
{"id": "C73", "title": "The sample files are shown as documented", "statement": "For each file in bin/test-files the blob inspector shows what the comments and tests say the object holds, also when the same blob is encoded in another way.", "quantifier": "every sample, every encoding of it, every order of evaluation the compiler may choose", "why_tests_cant": "the tests run one encoding with one compiler, and one test is switched off", "anchors": ["bin/blob-inspector/test/blob-inspector-test.cxx", "bin/blob-inspector/BlobInspector.cxx: dump", "bin/test-files"]}
{"id": "C74", "title": "Files of both supported versions can be opened", "statement": "Files with the header of Corda 1 to 4 and files with the header of the Corda 5 developer preview are accepted by the library and the dumpers.", "quantifier": "every payload and encoding byte", "why_tests_cant": "ranges over all files; the test for the preview sample ignores headers", "anchors": ["libs/amqp/include/AMQPHeader.h: AMQP_HEADERS", "libs/amqp/src/CordaBytes.cxx: CordaBytes", "bin/test-files/_i_.dp"]}
{"id": "C75", "title": "What the sample programs write is shown", "statement": "Take any set of classes whose schema the inspector can handle, and any graph of objects of these classes: if there is an object of each class, the graph is serialised, and saved in any encoding it is shown by the blob inspector, every property with its value. In particular each writer-test program's object is shown, whatever values its constructor is given.", "quantifier": "every schema, every object graph of any size and depth over it, every encoding; for the programs, all constructor values and containers of every length", "why_tests_cant": "each program runs with one choice of values and nothing checks what it writes", "anchors": ["bin/writer-tests", "bin/blob-inspector/main.cxx: main", "libs/amqp/include/serializable/Serializable.h: serialise", "libs/amqp/src/serializable/Serializable.cxx: serialise"]}
{"id": "C76", "title": "What the sample programs write can be read back", "statement": "Each reader-test program gets back the values it has written (or, for reader-test-01, that writer-test-01 has), from the blob as well as from a file in any encoding.", "quantifier": "all values of the constructors, every encoding", "why_tests_cant": "each program runs with one choice of values and its output is not checked", "anchors": ["bin/reader-tests", "libs/amqp/include/assembler/SerialiserFactory.h: deserialise", "libs/amqp/include/assembler/ReadNonPrimitive.h: read"]}
{"id": "C77", "title": "What an inspection makes of any payload", "statement": "For types that make sense and any payload with a descriptor, whatever is inside, the outcome of the blob inspector (text, exception or undefined behaviour) is the one a direct description of the payload tree gives. Surplus values of an object are ignored, missing ones replaced by the last; a class with a float property and a non-empty list of public keys are never shown; behaviour is undefined only if an object inside has the descriptor of a class whose number of properties differs from another's. A payload that contradicts its schema is refused.", "quantifier": "every schema that makes sense and can be put in order, every payload tree of any size and depth, well-formed or not, both orders of evaluation", "why_tests_cant": "ranges over all payload trees, most of which no serialiser writes", "anchors": ["bin/blob-inspector/BlobInspector.cxx: dump", "libs/amqp/src/serialiser/serialisers/reader/CompositeReader.cxx: _dump, dump", "libs/amqp/src/serialiser/serialisers/reader/property-readers", "libs/amqp/src/serialiser/serialisers/reader/restricted-readers/ArrayReader.cxx: dump_", "libs/amqp/src/serialiser/serialisers/reader/restricted-readers/ListReader.cxx: dump_", "libs/amqp/src/serialiser/serialisers/reader/restricted-readers/MapReader.cxx: dump_", "libs/amqp/src/serialiser/serialisers/reader/restricted-readers/EnumReader.cxx", "bin/blob-inspector/BlobInspector.cxx: BlobInspector"]}
{"id": "C78", "title": "The listing of a collection of types shows each type at its level", "statement": "Printing an ordered collection of types gives the levels, numbered from one, each with the names of its types one per line: read line by line it gives back the names level by level, and after any insertions it shows every inserted name exactly as often as it was inserted.", "quantifier": "every collection of any size, every sequence of insertions, every set of answers the types give about each other", "why_tests_cant": "the tests compare a handful of listings of at most three types", "anchors": ["libs/amqp/src/schema/OrderedTypeNotations.h: operator <<, insert", "libs/amqp/src/test/Map.cxx"]}
{"id": "C79", "title": "Printing a schema or a type shows what it consists of", "statement": "Printing a schema or an envelope gives one line per type with its name and kind, in schema order; printing a composite type its name, label, descriptor and every field; printing a restricted type its name, label, descriptor, kind and what it provides. Every section stands under its heading. Types that differ print differently.", "quantifier": "every schema and every type", "why_tests_cant": "nothing tests these operators", "anchors": ["libs/amqp/src/schema/described-types/Schema.cxx: operator <<", "libs/amqp/src/schema/described-types/Envelope.cxx: operator <<", "libs/amqp/src/schema/described-types/Composite.cxx: operator <<", "libs/amqp/src/schema/described-types/field-types/Field.cxx: operator <<", "libs/amqp/src/schema/restricted-types/Restricted.cxx: operator <<"]}
{"id": "C80", "title": "Reading a value through its serialiser gives the value", "statement": "read of a serialiser delivers the value at the current node and moves to the next; readString delivers the same as text, which is also the text the inspector shows up to the quotes around strings; write puts the value.", "quantifier": "every position in every tree, every primitive type, every kind of serialiser the factory makes", "why_tests_cant": "nothing tests read, readString or write of the serialisers", "anchors": ["libs/amqp/src/serialiser/serialisers/reader/property-readers: read, readString", "libs/amqp/src/serialiser/serialisers/reader/CompositeReader.cxx: read, readString", "libs/amqp/src/serialiser/serialisers/reader/restricted-readers/RestrictedReader.h: read, readString", "libs/amqp/src/serialiser/serialisers/writer/Writer.cxx: write", "libs/corda-custom-types/src/java/security/PublicKeySerialiser.cxx: read, readString, write"]}
{"id": "C81", "title": "Numbers are shown correctly", "statement": "The text shown for an integer reads as that integer, so different integers are shown differently. The text shown for a finite double or float is a minus sign if its sign bit is set, the integral part, a point and six digits, and reads as the number rounded to millionths, half to even; infinities and what is not a number are named. Doubles of the same sign that share a text are at most a millionth apart.", "quantifier": "every integer, all 2^64 bit patterns of a double and all 2^32 of a float", "why_tests_cant": "bit patterns cannot be enumerated; rounding ties, subnormal and huge numbers are never in a test", "anchors": ["libs/amqp/src/serialiser/serialisers/reader/property-readers: dump", "libs/amqp/src/AMQPBlob.cxx: dumpPrimitive"]}
{"id": "C82", "title": "What is accepted as a schema", "statement": "Only proper encodings of an envelope are accepted: the envelope reader succeeds exactly on trees that stand for an envelope whose types can be constructed and put in order, and then returns those types and the payload's descriptor. Any accepted tree gives what the proper encoding of the same types gives.", "quantifier": "every tree of any size and shape, every position of the cursor", "why_tests_cant": "ranges over all malformed trees", "anchors": ["libs/amqp/src/schema/descriptors/corda-descriptors/EnvelopeDescriptor.cxx: build", "libs/amqp/src/schema/descriptors/corda-descriptors/SchemaDescriptor.cxx: build", "libs/amqp/src/schema/descriptors/corda-descriptors/CompositeDescriptor.cxx: build", "libs/amqp/src/schema/descriptors/corda-descriptors/RestrictedDescriptor.cxx: build", "libs/amqp/src/schema/descriptors/corda-descriptors/FieldDescriptor.cxx: build", "libs/amqp/src/AMQPBlob.cxx: dumpContents"]}
{"id": "C83", "title": "Names and kinds of AMQP types", "statement": "typeToString gives the word for what the current value is (\"invalid\" if there is none), a different one for every type; is_primitive holds exactly of the scalar types.", "quantifier": "every value and position, all 26 types", "why_tests_cant": "nothing tests either function", "anchors": ["libs/proton-wrapper/src/proton_wrapper.cxx: typeToString, is_primitive, protonToString"]}
{"id": "C84", "title": "The text shown determines the value", "statement": "Two payloads of the same type that the inspector shows with the same text are the same, up to what the text does not show: digits of doubles beyond the sixth decimal, the bytes of binary values and the ordinals of enumeration constants.", "quantifier": "every schema whose types have names of their own, every two values of any size and depth", "why_tests_cant": "a statement about pairs of values; tests only look at single outputs", "anchors": ["bin/blob-inspector/BlobInspector.cxx: dump", "libs/amqp/src/serialiser/serialisers/reader/Reader.cxx: dump", "libs/amqp/src/serialiser/serialisers/reader/property-readers/StringPropertyReader.cxx: dump"]}
{"id": "C85", "title": "What a data dump makes of any tree", "statement": "The outcome of a data dump is that of a direct description of the tree: only the payload matters; a primitive shows its value, and of a map's parts the ones numbered 3i+1 and 3i+2 are shown, each as if it had the type of the part before it, so a single entry shows its value twice and its key not at all. The data and the position in it are left alone.", "quantifier": "every tree of any size and shape, every position of the cursor", "why_tests_cant": "ranges over all trees, most of them malformed", "anchors": ["libs/amqp/src/AMQPBlob.cxx: dumpData, dumpPrimitive, dumpList, dumpMap, dumpDescribed"]}
{"id": "C86", "title": "What the library's own unit tests check", "statement": "The checks the unit tests make hold: objects with one, two or several primitive properties or pointers to them come back with their values, collections of types print in the expected order, names of types are taken apart and put together as expected, and values are shown as expected; the round trips for all values, the orderings whatever the random fingerprints are.", "quantifier": "all values of the properties, all fingerprints, all names where the test has one example", "why_tests_cant": "this is what the tests check, for the inputs they do not try; the ones that fail or are undefined are named", "anchors": ["libs/amqp/src/test", "libs/amqp/include/test/SerializableVectorTests.cxx", "libs/corda-utils/test/TypeTests.cxx"]}
{"id": "C87", "title": "The order of the types depends on names and contents alone", "statement": "Two schemas whose types agree in their names, the types of their properties and what the containers are of, are put in the same order and listed alike, or fail in the same way, whatever their labels, fingerprints, interfaces, names of properties and constants of enumerations.", "quantifier": "every two lists of types of any length", "why_tests_cant": "a statement about pairs of schemas", "anchors": ["libs/amqp/src/schema/OrderedTypeNotations.h: insert, operator <<", "libs/amqp/src/schema/described-types/Composite.cxx: dependsOn, dependsOnRHS", "libs/amqp/src/schema/restricted-types: dependsOn, dependsOnRHS"]}
{"id": "C88", "title": "What reading an object makes of any tree", "statement": "The outcome of deserialising a class is that of a direct description of the tree: the payload must be a described list, each property takes the next part, which must be of the AMQP type that goes with the C++ type; the last part counts for all that are missing, descriptors and further parts are not looked at; a string property on anything else is undefined, as is any vector property. An object is returned exactly if all this fits, and then every property has a value of its declared type.", "quantifier": "every class, every tree of any size and shape, every position of the cursor", "why_tests_cant": "ranges over all trees, most of them malformed", "anchors": ["libs/amqp/include/assembler/SerialiserFactory.h: deserialise", "libs/amqp/include/assembler/SerialiserFactoryReaders.h", "libs/amqp/include/assembler/ReadPrimitive.h", "libs/amqp/include/assembler/ReadNonPrimitive.h", "libs/amqp/src/serialiser/PrimToSerializer.h: get", "libs/amqp/src/AMQPBlob.cxx: readyPayload, startComposite, endComposite"]}
{"id": "C89", "title": "What reading a schema makes of any tree", "statement": "The outcome of reading an envelope, or any one schema element, is that of a direct description of the tree: which parts are read as what, in which order, which exception comes first, and which trees lead to undefined behaviour.", "quantifier": "every tree of any size and shape, every position of the cursor", "why_tests_cant": "ranges over all trees, most of them malformed", "anchors": ["libs/amqp/src/schema/descriptors/corda-descriptors/EnvelopeDescriptor.cxx: build", "libs/amqp/src/schema/descriptors/corda-descriptors/SchemaDescriptor.cxx: build", "libs/amqp/src/schema/descriptors/corda-descriptors/CompositeDescriptor.cxx: build", "libs/amqp/src/schema/descriptors/corda-descriptors/RestrictedDescriptor.cxx: build", "libs/amqp/src/schema/descriptors/corda-descriptors/FieldDescriptor.cxx: build", "libs/amqp/src/schema/descriptors/AMQPDescriptorRegistory.cxx", "libs/amqp/src/AMQPBlob.cxx: dumpContents"]}
{"id": "C90", "title": "What a raw schema dump makes of any tree", "statement": "The outcome of dumping the schema as raw text is that of a direct description of the tree: the lines written for each element, part by part, with the numbers counted as the code counts them, or the exception that comes first, or undefined behaviour; choices, references and transforms have their list taken for a described value.", "quantifier": "every tree of any size and shape, every position of the cursor", "why_tests_cant": "ranges over all trees, most of them malformed", "anchors": ["libs/amqp/src/AMQPBlob.cxx: dumpSchema", "libs/amqp/src/schema/descriptors/AMQPDescriptor.cxx: readRaw", "libs/amqp/src/schema/descriptors/corda-descriptors/EnvelopeDescriptor.cxx: readRaw", "libs/amqp/src/schema/descriptors/corda-descriptors/SchemaDescriptor.cxx: readRaw", "libs/amqp/src/schema/descriptors/corda-descriptors/CompositeDescriptor.cxx: readRaw", "libs/amqp/src/schema/descriptors/corda-descriptors/RestrictedDescriptor.cxx: readRaw", "libs/amqp/src/schema/descriptors/corda-descriptors/FieldDescriptor.cxx: readRaw", "libs/amqp/src/schema/descriptors/corda-descriptors/ObjectDescriptor.cxx: readRaw"]}
{"id": "C91", "title": "What an Avro schema dump makes of any tree", "statement": "The outcome of dumping the schema in the Avro form is that of a direct description of the tree: the text written for each element, with any name of a type taken apart as the code does it, or the exception that comes first, or undefined behaviour. A schema with anything but one part stops at an assertion; a name that is empty or a container of nothing reads before the start of a string.", "quantifier": "every tree of any size and shape whose texts have fewer than 2^63 characters, every position of the cursor, every name of a type", "why_tests_cant": "ranges over all trees and all names, most of them malformed", "anchors": ["libs/amqp/src/AMQPBlob.cxx: dumpSchema", "libs/amqp/src/schema/descriptors/AMQPDescriptor.cxx: readAvro", "libs/amqp/src/schema/descriptors/corda-descriptors/EnvelopeDescriptor.cxx: readAvro", "libs/amqp/src/schema/descriptors/corda-descriptors/SchemaDescriptor.cxx: readAvro", "libs/amqp/src/schema/descriptors/corda-descriptors/CompositeDescriptor.cxx: readAvro", "libs/amqp/src/schema/descriptors/corda-descriptors/RestrictedDescriptor.cxx: readAvro", "libs/amqp/src/schema/descriptors/corda-descriptors/FieldDescriptor.cxx: inferType, readAvro", "libs/amqp/src/schema/descriptors/corda-descriptors/ObjectDescriptor.cxx: readAvro"]}
{"id": "C92", "title": "What inspecting any tree makes", "statement": "The outcome of inspecting a blob is that of a direct description of the tree: which types of its schema can be read, in which order, and how; which type the payload is read as; and the text made of it, or the exception that comes first, or undefined behaviour. This also covers schemas with several types of one name or one descriptor, with types named like primitive types, and with types that are missing. What stands behind the schema never matters.", "quantifier": "every tree of any size and shape, every position of the cursor, both orders of evaluation; every list of types for processing", "why_tests_cant": "ranges over all trees with any schema and any payload, most of them malformed or ambiguous", "anchors": ["libs/amqp/src/AMQPBlob.cxx: dumpContents", "libs/amqp/src/assembler/CompositeFactoryInternal.cxx: process, processComposite, processRestricted, fetchReaderForRestricted, computeIfAbsent", "libs/amqp/src/serialiser/serialisers/reader: dump", "bin/blob-inspector/BlobInspector.cxx: dump", "bin/blob-inspector/main.cxx"]}
{"id": "C93", "title": "What one factory makes of several blobs", "statement": "A program that inspects blobs one after the other with one factory, and catches the exceptions, gets for each what a direct description of the trees and of what a factory remembers says. The first blob is inspected as with a new factory; a blob that a new factory shows is shown the same later, if no type it knows of was asked for in vain before and those known before are the same; a blob once shown is shown again. Otherwise earlier blobs can change what is made of a later one: witnesses are a failing assertion, a wrong value and another exception.", "quantifier": "every number of blobs, every tree of any size and shape for each, both orders of evaluation", "why_tests_cant": "ranges over all sequences of trees, including those that fail in between", "anchors": ["libs/amqp/src/AMQPBlob.cxx: dumpContents", "libs/amqp/src/assembler/CompositeFactoryInternal.cxx: process, processComposite, processRestricted, fetchReaderForRestricted, computeIfAbsent, byType, byDescriptor", "libs/amqp/src/serialiser/serialisers/reader: dump"]}
{"id": "C94", "title": "What writing any objects to a blob makes", "statement": "The outcome of serialising an object, and of writing any number of objects to one blob and making blobs of it in between, is that of a direct description of the objects: the values written in order, also those of an object that fails half way, and the classes and properties seen so far, each as it was first described. If all succeed the blob has all values and all classes. A blob made of no object or of more than one cannot be opened; an object that fails leaves its part behind, and can make one fail that can be written alone.", "quantifier": "every object of any size and nesting, every sequence of writing and making, including those with failures in between", "why_tests_cant": "ranges over all objects and all sequences of uses of one blob", "anchors": ["libs/amqp/src/ModifiableAMQPBlobImpl.cxx", "libs/amqp/src/ModifiableAMQPBlobImpl.h", "libs/amqp/include/assembler/SerialiserFactoryWriters.h", "libs/amqp/src/serializable/Serializable.cxx: serialise", "libs/amqp/include/serializable/SerializableVector.h", "libs/amqp/include/serializable/SerializableMap.h"]}
{"id": "C95", "title": "Names of classes do not decide whether objects can be inspected", "statement": "An object that the library serialises and its own inspector shows is also shown when its classes have other names. As stated this is false: the schema is written in alphabetical order, and the reader's ordering of types depends on the order of arrival. What holds: each object, also with lists and maps, is shown or inspecting it throws, never anything undefined; the library's own order of the types decides which. For classes with primitive members and members of such classes: with at most three classes it is shown just if no class uses itself by way of others; with more, it is shown if classes have names before those of the classes they use, or after them, and in general if, among the classes named before one class, each that uses it also uses those it uses. A class may have members of its own class. With lists and maps of classes that have primitive members only, it is shown if each class has a name after those of the classes it uses. Lists of objects with lists may fail under the same condition. Where a class uses itself by way of others, for instance by a list of its own kind, no names help. Where none of the classes without lists does, there are names for them under which it is shown. The text never contains the names.", "quantifier": "every list of classes, lists and maps the library can make types of, every object of these of any size, both orders of evaluation; conditions on names: classes with members of primitive types and of these classes", "why_tests_cant": "ranges over all classes, all names and all objects; a test has one set of names", "anchors": ["libs/amqp/src/ModifiableAMQPBlobImpl.cxx: toBlob", "libs/amqp/src/schema/OrderedTypeNotations.h: insert", "libs/amqp/src/assembler/CompositeFactoryInternal.cxx: process, processComposite", "libs/amqp/src/AMQPBlob.cxx: dumpContents"]}
{"id": "C96", "title": "Ordering the types of a schema cannot be made slow", "statement": "Putting n types in order calls dependsOn at most n^3 - n times, whatever the types are: also if they depend on each other in circles, also if a call throws. In particular every blob whose schema is accepted has taken at most so many calls. Keeping account of the calls does not change the result.", "quantifier": "every list of types of any length, every answer of dependsOn among 0, 1 and 2 or an exception, every tree given to the envelope reader", "why_tests_cant": "the worst case over all schemas is out of reach of a test; the recursion moves a type again and again, and one example does not show that it stops early", "anchors": ["libs/amqp/src/schema/OrderedTypeNotations.h: insert", "libs/amqp/src/schema/descriptors/corda-descriptors/SchemaDescriptor.cxx: build"]}
{"id": "C97", "title": "Everything the data dumper prints, and what its trace gives away", "statement": "When the arguments, the file, its header or its encoding are refused, the data dumper prints nothing on standard output. Given a file with a blob, whatever the decoded tree is, it prints the debugging trace of the library, line by line as the tree determines it, and then, if the dump succeeds, the dump and a line end; how it ends does not depend on the trace. A successful run has at least four lines before the dump, so standard output as a whole is never the dump alone. If no map in the payload has entries, the trace has one line for the envelope, one for every list and three for every described value, in the order of the payload, and it does not depend on the values: payloads that differ in values only have the same trace. With entries in maps it does: the first string of a list can be printed as a descriptor.", "quantifier": "every file system content with files below 2^63 bytes, every decoder, every tree, all names the compiler gives the source files", "why_tests_cant": "ranges over all trees; equality of the traces of all pairs of payloads with the same outline is a statement about pairs of runs", "anchors": ["libs/amqp/src/AMQPBlob.cxx: dumpList, dumpMap, dumpDescribed, dumpData", "libs/proton-wrapper/src/proton_wrapper.cxx: attest_is_list, readAndNext<std::string>", "libs/corda-utils/include/debug.h: DBG", "bin/data-dumper/main.cxx: main"]}
{"id": "C98", "title": "What the tools print is bounded by the size of the file", "statement": "The dump a tool prints is at most quadratic in the length of the file. As stated this is false of three of the four dumps: moving on from the last part of a value stays at the last part, so it is read again. What holds for every file: a decoded tree is at most 37 times as big as its encoding; the schema as Avro is at most 50000 times the square of the length of the file. If every object has a part for each property of its class and every map an even number of parts, the inspection is at most 1600 times the square; if there are no maps, the data dump is at most 900 times the length; if no envelope has a single part, the raw schema is at most 170000 times the square. Otherwise each further 17 bytes (an object with its last property missing), 32 bytes (a map with one entry) or 19 bytes (an envelope with one part) double the dump, so that a file of 1341 bytes asks for more than 10^19 characters. For a file the library saved: the raw schema is so bounded for every object; the data dump for every object without maps; the inspection for every object in which all objects of a class have the same properties and every class has a fingerprint of its own; without these conditions 26 bytes (a map in a map) or 14 bytes (an object that writes one property less) more in a saved file double the dump. The trace the library prints in between is not counted.", "quantifier": "every file below 2^63 bytes (Avro: 2^57) and what the decoder makes of it, both orders of evaluation; witnesses for every depth below 2^26", "why_tests_cant": "a bound over all files; a test cannot wait for the output of the witnesses", "anchors": ["libs/amqp/src/serialiser/serialisers/reader/CompositeReader.cxx: _dump", "libs/amqp/src/AMQPBlob.cxx: dumpMap, dumpData, dumpContents, dumpSchema", "libs/amqp/src/schema/descriptors/corda-descriptors/EnvelopeDescriptor.cxx: readRaw", "bin/blob-inspector/main.cxx", "bin/data-dumper/main.cxx", "bin/schema-dumper/main.cxx"]}
{"id": "C99", "title": "Everything the schema dumper prints", "statement": "When the arguments, the mode, the file, its header or its encoding are refused, the schema dumper prints nothing on standard output. Given a file with a blob and a mode, it prints the debugging trace of the library, line by line as the decoded tree determines it, and then, if the dump succeeds, the dump and a line end; how it ends does not depend on the trace. The trace has two different lines for raw and seven for Avro, none with anything from the blob. For an envelope as Corda writes it the trace is given line by line. All of the standard output of a successful run with avro is JSON if the dump is. This last part is false, for every blob: a line that starts with a bracket and a file name comes first. With raw, standard output is the dump alone just if the blob has a symbol for its descriptor.", "quantifier": "every file system content with files below 2^63 bytes, every decoder, every tree (Avro: with texts below 2^63 characters), all names the compiler gives the source files (not JSON: names without a quotation mark)", "why_tests_cant": "ranges over all trees; that standard output is never JSON is a statement about all blobs", "anchors": ["libs/amqp/src/schema/descriptors/AMQPDescriptor.cxx: read, readRaw, readAvro", "libs/amqp/src/schema/descriptors/corda-descriptors/EnvelopeDescriptor.cxx: readAvro", "libs/amqp/src/schema/descriptors/corda-descriptors/SchemaDescriptor.cxx: readAvro", "libs/amqp/src/schema/descriptors/corda-descriptors/CompositeDescriptor.cxx: readAvro", "libs/amqp/src/schema/descriptors/corda-descriptors/ObjectDescriptor.cxx: readAvro", "libs/amqp/src/AMQPBlob.cxx: dumpSchema", "libs/proton-wrapper/src/proton_wrapper.cxx: attest_is_list, readAndNext<std::string>", "libs/corda-utils/include/debug.h: DBG", "bin/schema-dumper/main.cxx: main"]}
{"id": "C100", "title": "Everything the blob inspector prints, and what its trace gives away", "statement": "When the blob inspector is not given a file with a blob, it prints nothing on standard output. Given one, it prints the debugging trace of the library and then, if the inspection succeeds, the dump and a line end; how it ends does not depend on the trace. A successful run has at least two lines before the dump, so standard output as a whole is never the dump alone. The trace depends on the payload only by its shape, its types, its descriptors and its ints: two files that differ in other values only have the same trace and end in the same way. Ints in fields are printed. In a successful run all types read so far are listed after each type of the schema, so that n types make at least 7 n (n + 1) / 2 characters; then each type is printed with its descriptor, and then a line for each type when its reader is made, both in the order of the schema.", "quantifier": "every file system content with files below 2^63 bytes, every decoder, every tree, both orders of evaluation, all names the compiler gives the source files (equal traces: envelopes with at least one part behind the payload)", "why_tests_cant": "equality of the traces of all pairs of payloads of the same shape is a statement about pairs of runs; the trace is printed from some eighty places in the code", "anchors": ["libs/amqp/src/schema/descriptors/corda-descriptors/EnvelopeDescriptor.cxx: build", "libs/amqp/src/schema/descriptors/corda-descriptors/SchemaDescriptor.cxx: build", "libs/amqp/src/schema/descriptors/corda-descriptors/CompositeDescriptor.cxx: build", "libs/amqp/src/schema/descriptors/corda-descriptors/RestrictedDescriptor.cxx: build", "libs/amqp/src/schema/descriptors/corda-descriptors/FieldDescriptor.cxx: build", "libs/amqp/src/schema/OrderedTypeNotations.h: insert", "libs/amqp/src/schema/described-types/Composite.cxx: dependsOnRHS", "libs/amqp/src/assembler/CompositeFactoryInternal.cxx: process, computeIfAbsent, installCustomSerialiser", "libs/amqp/src/serialiser/serialisers/reader", "libs/corda-utils/include/debug.h: DBG", "bin/blob-inspector/main.cxx: main"]}
{"id": "C101", "title": "What the blob inspector says about a value before it shows it", "statement": "For every schema as in C57 there are lines, the same for all values of its types, that the blob inspector prints first. They are followed by the remarks of the readers about the value, given line by line for every value, and then by the dump. In particular every int in a field of an object, however deep, is printed in the clear before the dump, in the order of the fields; two values that differ in texts, longs, doubles, truth values, binaries, constants of enumerations, and ints that are elements of a list or keys or values of a map only, make it print the same before the dump.", "quantifier": "every schema the inspector can handle, every value of its types of any size and depth, both orders of evaluation, every file system content with files below 2^63 bytes, every header the reader accepts, all names the compiler gives the source files", "why_tests_cant": "an equation for the whole output, over all values of any depth; that the lines before are the same for all values is a statement about all pairs of runs", "anchors": ["libs/amqp/src/serialiser/serialisers/reader/property-readers/IntPropertyReader.cxx: dump", "libs/amqp/src/serialiser/serialisers/reader/property-readers/StringPropertyReader.cxx: dump", "libs/amqp/src/serialiser/serialisers/reader/CompositeReader.cxx: _dump", "libs/amqp/src/serialiser/serialisers/reader/restricted-readers/ListReader.cxx: dump_", "libs/amqp/src/serialiser/serialisers/reader/restricted-readers/ArrayReader.cxx: dump_", "libs/amqp/src/serialiser/serialisers/reader/restricted-readers/MapReader.cxx: dump_", "libs/amqp/src/serialiser/serialisers/reader/restricted-readers/EnumReader.cxx: dump", "libs/proton-wrapper/src/proton_wrapper.cxx: attest_is_list, readAndNext<std::string>", "libs/amqp/src/AMQPBlob.cxx: dumpContents", "bin/blob-inspector/main.cxx: main"]}
{"id": "C102", "title": "Everything the library prints while an object is serialised, and what that gives away", "statement": "Serialising prints a debugging trace on standard output; how serialising ends does not depend on it. If serialising succeeds, the output is exactly the following: from the beginning of each object to its end, every property and element in the order in which it is written, where a property of a class is announced as described the first time it is met only; then the number of classes and the classes with the number of their properties. Every primitive value, however deep, that is not behind a pointer is printed in the clear, properties with their names. Two objects of a class that differ in values behind pointers to primitives other than characters only print the same. `dump` shows each class once with name, fingerprint and the number of its properties.", "quantifier": "every object graph of any size and depth, all names the compiler gives source files and types, everything the classes print themselves before they write, every way addresses and floating point numbers are printed, both orders of evaluation", "why_tests_cant": "an equation for all of the output over all object graphs; that no value behind a pointer is printed is a statement about all pairs of runs", "anchors": ["libs/amqp/src/ModifiableAMQPBlobImpl.cxx: startSerializable, startComposite, startRestricted, writeComposite, writeRestricted, writeNull, endComposite, endRestricted, toBlob, dump", "libs/amqp/src/ModifiableAMQPBlobImpl.h: writePrimitive, writePrimitiveSingle, make", "libs/amqp/src/serializable/Serializable.cxx: serialise", "libs/amqp/include/serializable/SerializableVector.h: _serialise", "libs/amqp/include/serializable/SerializableMap.h: _serialise", "libs/amqp/include/assembler/SerialiserFactoryWriters.h: write, writeSingle", "libs/corda-utils/include/types.h: javaTypeName", "libs/amqp/src/schema/descriptors/corda-descriptors/FieldDescriptor.cxx: makeProton", "libs/amqp/src/schema/descriptors/corda-descriptors/CompositeDescriptor.cxx: makeProton"]}
{"id": "C103", "title": "Everything the library prints while an object is deserialised, and what that gives away", "statement": "Deserialising prints a debugging trace on standard output; the outcome and the position in the data do not depend on it. For every tree and every class the output is given line by line, whether there is an object, an exception or undefined behaviour in the end; a scope that is left by an exception still prints its closing lines. When there is an object, every primitive value in it, however deep and also behind pointers, has been printed in the clear on a line of its own, all of them in the order in which they are read; for objects the library wrote these are the values they were written with (strings up to their first NUL). For classes that print nothing themselves the number of lines then depends on the class alone, and on whether the number in the descriptor of the blob is that of an envelope.", "quantifier": "every tree, every position in it, every class of any depth with primitives, classes, pointers to either and vectors, all names the compiler gives source files and types, everything the classes print themselves before and after they read, every way floating point numbers are printed", "why_tests_cant": "an equation for all of the output over all trees and classes, including the malformed ones", "anchors": ["libs/amqp/include/assembler/SerialiserFactory.h: read, deserialise", "libs/amqp/include/assembler/SerialiserFactoryReaders.h: PropertyReader", "libs/amqp/include/assembler/ReadNonPrimitive.h: read", "libs/amqp/src/serialiser/PrimToSerializer.h: get", "libs/amqp/src/AMQPBlob.cxx: readyPayload, startComposite, endComposite, startPrim", "libs/amqp/include/serializable/SerializableVector.h: deserialiseImpl", "libs/proton-wrapper/src/proton_wrapper.cxx: attest_is_list, operator <<"]}
{"id": "C104", "title": "What reader-test-01 does with any file", "statement": "reader-test-01 reports success and shows two numbers and a fingerprint exactly if it is given the name of a file whose object has two ints in front, and shows those. With the wrong number of arguments it does nothing and reports failure, and only then. Anything else ends in an exception nobody catches or in undefined behaviour; it never writes a file. All it prints on success is given line by line. On the file that writer-test-01 leaves it shows the number that program was made with and that number plus 50. That nothing else is shown as two numbers is violated: a single number is shown twice, and data that say they are compressed are read as if they were not. Partial: exactly which files are shown, and what of them.", "quantifier": "all arguments, every file system content with files below 2^63 bytes, every decoder (writer-test-01: every encoding of the blob, all numbers), all names the compiler gives source files and types", "why_tests_cant": "an equivalence over all files and all decoders", "anchors": ["bin/reader-tests/reader-test-01/main.cxx: main", "bin/reader-tests/reader-test-01/DeSerialiseMe.cxx: DeSerialiseMe, deserialiseImpl", "libs/amqp/src/CordaBytes.cxx: CordaBytes", "libs/amqp/src/AMQPBlob.cxx: AMQPBlob", "libs/amqp/include/assembler/SerialiserFactory.h: deserialise"]}
{"id": "C105", "title": "The programs that write an object and read it back do so", "statement": "reader-test-02 to 06 make an object, serialise it, save it to serialized.bin, deserialise it and show it. For all values in the object: the program reports success, leaves the file with the header, a zero and the encoded blob (if it can be opened), and prints what is said when the object is made, serialised, saved and read, in that order, and then the values it was made with, strings up to their first NUL. With an argument it does nothing and reports failure. Violated by reader-test-06, which dies of an exception for every list after it has saved it. Partial: reader-test-02 to 05.", "quantifier": "all numbers, strings, truth values and floating point values in the objects of the programs, all lists, every encoder, every file system, all names the compiler gives source files and types", "why_tests_cant": "the programs are only ever run with the values written in them", "anchors": ["bin/reader-tests/reader-test-02-nested-composite/main.cxx: main", "bin/reader-tests/reader-test-03-composite-ptr/main.cxx: main", "bin/reader-tests/reader-test-04-many-prims/main.cxx: main", "bin/reader-tests/reader-test-05-many-diff-prims/main.cxx: main", "bin/reader-tests/reader-test-06-int-list/main.cxx: main", "libs/amqp/src/CordaBytes.cxx: toFile"]}
{"id": "C106", "title": "The programs that write report success exactly if the file is there", "statement": "A program in bin/writer-tests reports success exactly if it is given one argument, its object can be serialised and the file of that name could be written; the file then holds the header, a zero and the encoded blob, and where the object can be shown (C75) the blob inspector shows it. With any other number of arguments the program does nothing and reports failure. Violated: whether the file could be opened makes no difference to the end of the program nor to what it prints. Partial: the file is right if it could be opened.", "quantifier": "every object graph, all arguments, every encoder, every file system, all names the compiler gives source files and types", "why_tests_cant": "the tests never use a path that cannot be written, and nobody looks at the file afterwards", "anchors": ["bin/writer-tests/writer-test-01/main.cxx: main", "bin/writer-tests/writer-test-02/main.cxx: main", "bin/writer-tests/writer-test-12-map-int-list-composite/main.cxx: main", "libs/amqp/src/CordaBytes.cxx: toFile, CordaBytes"]}
{"id": "C107", "title": "What the programs save, byte for byte", "statement": "With qpid-proton's choice of encodings, what is saved for an object is an encoding that AMQP allows and that decodes to the blob again, so that the claims about files in any encoding hold for it. Run with the values in main, reader-test-03 and reader-test-04 save exactly the files serialized.bin that are checked in beside them, and the file beside reader-test-01 is exactly what the library saves for an object like that of writer-test-01. Run with other numbers, these two programs save the same files with the other numbers in them and the sizes of the lists around them changed. The blob inspector shows the objects in all three. reader-test-01 shows the numbers in its file; the fingerprint it shows is the one compiled in, not the one in the file.", "quantifier": "every object whose names, texts and numbers have the sizes C++ and AMQP give them and whose encoding is below 4 GiB; all names the compiler gives source files and types; every path", "why_tests_cant": "no test compares a saved file with anything, and the checked-in files are not used by any test", "anchors": ["libs/amqp/src/CordaBytes.cxx: CordaBytes, toFile", "bin/reader-tests/reader-test-03-composite-ptr/main.cxx: main", "bin/reader-tests/reader-test-04-many-prims/main.cxx: main", "bin/reader-tests/reader-test-01/main.cxx: main"]}
{"id": "C108", "title": "The schema depends on the classes, not on the values", "statement": "Two objects that are serialised and are made of the same classes, with the same fingerprints, names and types of properties and the same pointers to objects null, are saved with the same schema, whatever the primitive values in them are and whether pointers to these are null. More than that, only the properties each class has when it is met first count: lists of objects that differ in length are saved with the same schema. Reading the schemas back and dumping them gives the same, and the schema dumper prints the same for the files they are saved in. Whether an object can be serialised at all should not depend on the values either: violated by properties that are pointers to char, which are read as NUL terminated strings although they point to a single char, so that the outcome is an object for one value and undefined behaviour for another. Partial: without pointers to char, success and the exception thrown depend on the types alone.", "quantifier": "every two object graphs of any depth with the same form, all values", "why_tests_cant": "a statement about all pairs of objects", "anchors": ["libs/amqp/src/ModifiableAMQPBlobImpl.cxx: startComposite, startRestricted, endComposite, toBlob", "libs/amqp/include/assembler/SerialiserFactoryWriters.h: write, writeSingle", "libs/amqp/src/ModifiableAMQPBlobImpl.h: writePrimitive", "libs/amqp/include/serializable/SerializableVector.h: _serialise"]}
{"id": "C109", "title": "Different objects are saved as different files", "statement": "Two different objects are never saved as the same file, so that whoever reads a file can tell which it was. Violated where classes share a fingerprint: the schema has the properties in alphabetical order and the payload in the order in which they are written, and nothing in the file connects the two, so that two values under two names and under the same names swapped make the same file, always. Partial: if every class has a fingerprint of its own, files of different objects are different, whatever encodings were chosen, down to the files the programs write.", "quantifier": "every two object graphs of any depth made of any classes with fingerprints of their own, all values, all encodings", "why_tests_cant": "a statement about all pairs of objects", "anchors": ["libs/amqp/src/ModifiableAMQPBlobImpl.cxx: startComposite, startRestricted, writeComposite, toBlob", "libs/amqp/src/ModifiableAMQPBlobImpl.h: writePrimitive, make", "libs/amqp/src/CordaBytes.cxx: CordaBytes, toFile", "libs/amqp/src/serialiser/PrimToSerializer.h: put"]}
{"id": "C110", "title": "A file that was cut off or continued is not shown", "statement": "Of a file and a longer one that begins with it, at most one is shown by a tool or read by reader-test-01. So no file that was cut off anywhere is taken for a complete one, and none to which something was added; in particular no object the library saved. If the first eight bytes are intact, the only thing that notices is the assertion on how many bytes were decoded, on which all three tools end.", "quantifier": "all files below 2^63 bytes, all ways of cutting them or adding to them, all arguments, every object and every encoding of it", "why_tests_cant": "a statement about all pairs of files", "anchors": ["libs/amqp/src/AMQPBlob.cxx: AMQPBlob", "libs/amqp/src/CordaBytes.cxx: CordaBytes", "bin/data-dumper/main.cxx: main", "bin/schema-dumper/main.cxx: main", "bin/blob-inspector/main.cxx: main", "bin/reader-tests/reader-test-01/main.cxx: main"]}
{"id": "C111", "title": "The memory the library takes is given back", "statement": "When the objects of the library a program has made are destroyed, all memory the library has taken for them is given back. Violated: no pn_data_t, the trees of qpid-proton that hold the values, is ever given back. A program that serialises objects and destroys everything is left with three of them for each object and one for each class and each property its schema describes, so that there is no bound on what is left; reading a blob leaves one, writing one object with one number five. Partial: the arrays of CordaBytes are given back, exactly those of the CordaBytes that are destroyed, also when exceptions are thrown; and nothing is ever given back twice.", "quantifier": "every program that makes, uses and destroys writers, blobs and CordaBytes in any order, any number of times, and catches all exceptions; every file system, encoder and decoder", "why_tests_cant": "no test looks at the memory, and none runs long enough to run out of it", "anchors": ["libs/amqp/src/AMQPBlob.cxx: AMQPBlob", "libs/amqp/src/ModifiableAMQPBlobImpl.cxx: ModifiableAMQPBlobImpl, startComposite, toBlob", "libs/amqp/src/ModifiableAMQPBlobImpl.h: writePrimitive", "libs/amqp/src/schema/descriptors/corda-descriptors/FieldDescriptor.cxx: makeProton", "libs/amqp/src/schema/descriptors/corda-descriptors/CompositeDescriptor.cxx: makeProton", "libs/amqp/src/schema/descriptors/corda-descriptors/RestrictedDescriptor.cxx: makeProton", "libs/amqp/src/schema/descriptors/corda-descriptors/SchemaDescriptor.cxx: makeProton", "libs/amqp/src/schema/descriptors/corda-descriptors/EnvelopeDescriptor.cxx: makeProton", "libs/amqp/src/CordaBytes.cxx: CordaBytes, ~CordaBytes"]}
{"id": "C112", "title": "Nothing is lost when deserialising throws", "statement": "What deserialise makes with new belongs to the result, and if it throws instead, nothing that was made is left. Violated: what a property that is a pointer points to is lost if a later property, or the property itself if it is a pointer to a primitive, cannot be read. What is lost is exactly what the pointers read so far point to, in each of the classes around the place where reading throws. Partial: if it does not throw nothing is lost, and for classes without pointers nothing is lost in any case.", "quantifier": "all classes of any depth with any properties, all blobs", "why_tests_cant": "no test has a blob that cannot be read, and none looks at the memory", "anchors": ["libs/amqp/include/assembler/SerialiserFactory.h: deserialise, read", "libs/amqp/include/assembler/SerialiserFactoryReaders.h: PropertyReader", "libs/amqp/include/assembler/ReadPrimitive.h: read", "libs/amqp/include/assembler/ReadNonPrimitive.h: read"]}
{"id": "C113", "title": "What is done with a blob does not depend on what was done with it before", "statement": "A blob can be used any number of times: dumpData, dumpSchema, dumpContents, deserialise and saving give what they give with a new blob of the same bytes, whatever was done before with it or with a copy of it, although they move the cursor of the tree it points to. Violated: deserialise leaves the cursor on the schema. From then on the data and the contents of the blob and of all its copies can never be shown (undefined behaviour instead), deserialise always throws, dumpSchema shows the schema without the envelope until reading is tried again and then throws; only saving still works. The same holds after deserialise threw, for every blob the library wrote. Partial: no use changes the tree, the bytes are always the same, and as long as no object was read from a blob or its copies everything is as with a new one.", "quantifier": "all programs that make any number of blobs, copy them and use them in any order, all trees, all classes to read", "why_tests_cant": "the tests make a new blob for each use", "anchors": ["libs/amqp/include/AMQPBlob.h: m_data", "libs/amqp/src/AMQPBlob.cxx: dumpSchema, dumpData, dumpContents, readyPayload, startComposite, endComposite", "libs/amqp/include/assembler/SerialiserFactory.h: deserialise", "libs/amqp/src/CordaBytes.cxx: CordaBytes"]}
{"id": "C114", "title": "The size of a saved file", "statement": "The file the sample programs write for an object has exactly the size that follows from its values and its classes: each value in the shortest AMQP form, nulls one byte, the fingerprint with each object, and the description of each class and each of its properties once. Files with objects of the same classes differ by what the objects take, a longer list takes what its further elements take by themselves, an object takes at most 15 bytes for each value in it and one for each letter, and the file is never larger than if everything was described wherever it is used.", "quantifier": "all objects of any depth that can be serialised, all lists and maps of any length, all texts", "why_tests_cant": "tests compare single files; how the size grows with the object shows in no test", "anchors": ["libs/amqp/src/ModifiableAMQPBlobImpl.cxx: startComposite, startRestricted, writeComposite, writeRestricted, writeNull, toBlob", "libs/amqp/src/CordaBytes.cxx: CordaBytes, toFile", "bin/writer-tests/writer-test-01/main.cxx: main"]}
{"id": "C115", "title": "The schema describes every type it names", "statement": "The schema of a serialised object describes every type, other than the primitive ones, that it names as the type of a property or of what is in a container, so that a receiver who knows nothing but the file can make sense of it. Violated: only classes of which there is an object are described. A null pointer to an object, an empty list or map, and a pointer to an object of a derived class name classes that may be described nowhere. The schema is complete if, and only if, there are objects of all the classes named in such places somewhere else in the object. An object with a property of a class that is not described, or of a type the inspector cannot read (a character), is never shown by the inspector. Partial: if there is an object wherever a class is named, the schema is complete.", "quantifier": "all objects of any depth, all lists and maps, all names of classes", "why_tests_cant": "the tests that write null pointers or empty containers do not look at the schema", "anchors": ["libs/amqp/src/ModifiableAMQPBlobImpl.cxx: startComposite, startRestricted, writeComposite, writeRestricted, writeNull", "libs/amqp/include/assembler/SerialiserFactoryWriters.h: PropertyWriter, NonPrimWriter", "libs/amqp/src/assembler/CompositeFactoryInternal.cxx: process, computeIfAbsent, fetchReaderForRestricted"]}
{"id": "C116", "title": "The order in which a compiler evaluates arguments does not matter", "statement": "C++ leaves open in which order the arguments of a call are evaluated. What the inspector shows of a file does not depend on it. Violated: a map with one entry from key to value is shown as one from value to key if arguments are evaluated from right to left. Then a value that was written with keys and values exchanged in all its maps, at any depth, is shown as it was before the exchange. Partial: if no map in the payload has entries, the text is the same, or there is an exception either way, or undefined behaviour either way, whatever the schema and however malformed the file; and if no type of the schema is a map, the outcome is the same down to the text of the exception. So the inspector ends in the same way, and objects in which all maps are empty are shown in the same way.", "quantifier": "all trees, well-formed or not; for the exchange all schemas the library writes and all values of any depth", "why_tests_cant": "a test is run with one compiler", "anchors": ["libs/amqp/src/serialiser/serialisers/reader/restricted-readers/MapReader.cxx: dump_", "libs/amqp/src/assembler/CompositeFactoryInternal.cxx: processRestricted, fetchReaderForRestricted", "bin/blob-inspector/BlobInspector.cxx: dump"]}
{"id": "C117", "title": "A tool that fails says why on standard error", "statement": "Each of the three command line tools says nothing on standard error if it succeeds and says why if it fails: how it is used, that the encoding is another one, or what exception there was. Violated: a file that does not exist is met with silence by all three, and the blob inspector is silent also without an argument; and of the thirteen sample programs that say how they are used, six give the name of another program and one a name that no program has. Partial: the dumpers are silent on failure in that one case only, and what they say in each case is exact; the blob inspector complains about a header it does not know, with all seven bytes as numbers, even if it then succeeds.", "quantifier": "all files, all arguments, all decoders; for the header all bytes, on machines where char has a sign and where it has none", "why_tests_cant": "no test runs the tools with wrong arguments or files, and none looks at standard error", "anchors": ["bin/data-dumper/main.cxx: main", "bin/schema-dumper/main.cxx: main", "bin/blob-inspector/main.cxx: main", "libs/amqp/src/CordaBytes.cxx: CordaBytes", "bin/writer-tests/writer-test-07-int-list/main.cxx: main", "bin/reader-tests/reader-test-01/main.cxx: main"]}
{"id": "C118", "title": "A tool shows what is in the file or fails", "statement": "Given a name, a tool shows what can be read from it, or it fails with an exit code; so also for a name that stands for a directory, a pipe or a device, and for a file that changes while it is read. Violated: the size is what stat says, not how much can be read. With a pipe, a device or anything else without a size the tools are aborted by an exception they do not catch, although the whole blob can be read, since the size of the preamble is subtracted from zero; so they are when there is not enough memory. With a directory or a file that must not be read the blob inspector has undefined behaviour. Of a file that shrinks after its size was asked for, zeros are shown where something was, with exit code 0. Partial: the dumpers refuse what cannot be read, with exit code 1; a file that grows is shown as it was; and all that can be said of ordinary files holds, of the bytes that were read with zeros in the place of those that were not.", "quantifier": "all names, all sizes, all bytes, all amounts of memory, all decoders, all arguments", "why_tests_cant": "tests read ordinary files that do not change", "anchors": ["libs/amqp/src/CordaBytes.cxx: CordaBytes", "bin/data-dumper/main.cxx: main", "bin/schema-dumper/main.cxx: main", "bin/blob-inspector/main.cxx: main"]}
{"id": "C119", "title": "A program that reports success has saved the file", "statement": "A sample program that ends with exit code 0 and says that it saved the object has left a file that holds it, also on a disk that is nearly full or on which the file cannot be written. Violated: nobody looks at the stream. If there is no room the program says the same and ends in the same way, and what fits of the file is left, down to nothing, whatever was in the file before; if the file cannot be opened, what was there before is still there, and the inspector shows the earlier object as if it were the later one. Partial: the file is whole exactly if there was room, or it could not be opened and held the same already; all other files are as they were; a program that fails leaves all files as they were; no tool and no reading program shows anything of a file that was cut, and if the preamble is in it the tools fail an assertion.", "quantifier": "all objects, all disks (any amount of room, any files there before), all names, all encodings", "why_tests_cant": "tests write to disks with room", "anchors": ["libs/amqp/src/CordaBytes.cxx: toFile", "bin/writer-tests/writer-test-02/main.cxx: main", "bin/reader-tests/reader-test-02-nested-composite/main.cxx: main"]}
{"id": "C120", "title": "The message of a failed type check says what was expected, what is there and where", "statement": "If a function of the wrapper that checks the type of the current value throws, its message says what type was expected, what type is there and from where in the program the function was called. Partial: ten of the checks say exactly that, and of two more it can be told from the message what type is there; there is a message exactly if the check throws. Violated: the check for a symbol says that an unsigned long was expected, even if an unsigned long is there; this check and those for a text (two), for a boolean and for an int say the same whatever is there. One check also writes to standard error, if it finds an int.", "quantifier": "all values, all positions, all file names and line numbers", "why_tests_cant": "tests look at whether there is an exception, if at that, not at its text", "anchors": ["libs/proton-wrapper/src/proton_wrapper.cxx: is_ulong, is_symbol, attest_is_described, attest_is_int, attest_is_binary, attest_is_bool, attest_is_float, attest_is_long, attest_is_char, attest_is_double, attest_is_list, is_map, attest_is_string, get_string, get_boolean, get_int, readAndNext"]}
{"id": "C121", "title": "An object of a class without a fingerprint is not written", "statement": "If a class was not given a fingerprint, no object of it, and no object that contains one, is written: there is an exception that says so, and what was written to the blob before is as it was. Partial: built with AppleClang there is this exception for every object with such an object anywhere in it that could be written otherwise, and nothing changes if the object itself is of such a class. (With another compiler a program that writes such an object cannot be linked.) Objects whose classes have fingerprints are written in the same way whatever the compiler. Violated: if the class of an object inside has none, the beginning of the outer object stays in the blob, and the blob made of it and the next object cannot be opened; and a class that was given the very text that stands for a missing fingerprint is refused by one build of a program and written by the other.", "quantifier": "all objects of any size and nesting, all states of a blob, both kinds of builds; for given fingerprints all sequences of writing and making", "why_tests_cant": "no test has a class without a fingerprint, and each is run with one compiler", "anchors": ["libs/amqp/include/serializable/Serializable.h: _fingerprint", "libs/amqp/include/serializable/RestrictedSerializable.h: fingerprint", "libs/amqp/src/ModifiableAMQPBlobImpl.cxx: startComposite, startRestricted"]}
{"id": "C122", "title": "A program's own serialisers show the values of their types, and nothing else changes", "statement": "If a program installs serialisers of its own (installCustomSerialiser), then wherever a value of such a type stands, what its serialiser makes of it is shown, and everything else is shown as without them; serialisers for types that do not occur change nothing, and of two for the same type the last installed counts. Partial: proved for serialisers that show the value at the cursor, step over it and touch nothing else (those for types that do not occur, and those with a later one for the same type, may do anything), installed before the first blob, and it holds even if the type is a primitive one or is described in the schema. Violated: nothing checks that a serialiser steps over its value, and if it does not, the next property is shown wrongly without an exception; and a serialiser installed after a blob was shown makes that same blob impossible to show: an exception if a property is of its type, undefined behaviour if the elements of a list are.", "quantifier": "all numbers of serialisers of any behaviour of that kind, all schemas whose types make sense, all payloads of any size and nesting whether they fit the schema or not", "why_tests_cant": "there is one custom serialiser in the repository, and no test installs another or installs one late", "anchors": ["libs/amqp/src/assembler/CompositeFactoryInternal.cxx: installCustomSerialiser, computeIfAbsent", "libs/amqp/include/serialiser/CustomSerializer.h", "bin/blob-inspector/BlobInspector.cxx: dump"]}
{"id": "C123", "title": "The dump is the last line of what a tool prints", "statement": "Everything the blob inspector, the data dumper and the schema dumper print in front of the dump is whole lines, so that the dump begins at the start of a line and nothing comes after it, and a script can take the last line of the output. Partial: proved for the blob inspector and the data dumper if no text or symbol of the blob has a line end in it. Violated: texts are shown as they are, and one with a line end makes the last line something else, which can be the dump of another blob.", "quantifier": "all blobs of any size and nesting, whatever they hold, all arguments and files, all places the source can be compiled at; for the last line all blobs without line ends in texts and symbols", "why_tests_cant": "the tests look at what the functions return, not at what the tools print, and their texts have no line ends", "anchors": ["libs/corda-utils/include/debug.h: DBG", "bin/blob-inspector/main.cxx: main", "bin/data-dumper/main.cxx: main", "bin/schema-dumper/main.cxx: main", "libs/amqp/src/serialiser/serialisers/reader/property-readers/StringPropertyReader.cxx: dump"]}
