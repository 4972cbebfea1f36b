{
 "claims": [
  {
   "property": "C01",
   "status": "partial",
   "theorems": [
    "Corda.Props.C01_preamble_acceptance",
    "Corda.Props.C01_rejection_partial",
    "Corda.Props.C01_encoding_violated",
    "Corda.Props.C01_missing_file"
   ],
   "note": "Acceptance is proved exactly for every file of at least eight bytes (below 2^63) and every configuration naming an existing header. Rejection by an exception is false for files whose header passes and whose eighth byte is above 3 (undefined conversion to an enumeration); proved for all others. C01_missing_file covers the missing file."
  },
  {
   "property": "C02",
   "status": "proved",
   "theorems": [
    "Corda.Props.C02_payload_exact"
   ],
   "note": "Sizes below 2^63, as file positions are signed 64-bit numbers."
  },
  {
   "property": "C03",
   "status": "partial",
   "theorems": [
    "Corda.Props.C03_short_file_violated",
    "Corda.Props.C03_short_file_partial"
   ],
   "note": "False as stated: a file of 0-7 bytes whose content is a prefix of the magic long enough to pass the zero-filled header comparison (or any such file with ignoreHeader) reads an uninitialised encoding byte. The partial theorem covers every other short file."
  },
  {
   "property": "C04",
   "status": "proved",
   "theorems": [
    "Corda.Props.C04_save_load",
    "Corda.Props.C04_made",
    "Corda.Props.C04_load_save_load"
   ],
   "note": "Also loading, saving and loading again (C04_load_save_load)."
  },
  {
   "property": "C05",
   "status": "proved",
   "theorems": [
    "Corda.Props.C05_list_type"
   ],
   "note": "Holds for any argument text, not only well-formed ones."
  },
  {
   "property": "C06",
   "status": "proved",
   "theorems": [
    "Corda.Props.C06_map_type"
   ],
   "note": "With any number of blanks around the arguments."
  },
  {
   "property": "C07",
   "status": "proved",
   "theorems": [
    "Corda.Props.C07_nested_preorder",
    "Corda.Props.C07_nested_total"
   ],
   "note": "Also: for every string the enumeration terminates without undefined behaviour."
  },
  {
   "property": "C08",
   "status": "partial",
   "theorems": [
    "Corda.Props.C08_is_array_partial",
    "Corda.Props.C08_is_array_violated"
   ],
   "note": "False as stated: undefined behaviour exactly on the empty name, ']' and 'p]' (iff proved). Everywhere else proved."
  },
  {
   "property": "C09",
   "status": "proved",
   "theorems": [
    "Corda.Props.C09_unbox"
   ],
   "note": ""
  },
  {
   "property": "C10",
   "status": "partial",
   "theorems": [
    "Corda.Props.C10_parsed_violated",
    "Corda.Props.C10_float_violated",
    "Corda.Props.C10_boxed_readable_violated",
    "Corda.Props.C10_boxed_readable_partial"
   ],
   "note": "False: Boolean, Byte, Character and Short become names ('bool','char','short') for which makePropertyReader throws. The other four have a reader; the one for Float throws whatever it reads (C10_float_violated)."
  },
  {
   "property": "C11",
   "status": "proved",
   "theorems": [
    "Corda.Props.C11_terminates",
    "Corda.Props.C11_bound_irrelevant",
    "Corda.Props.C11_permutation",
    "Corda.Props.C11_schema_types"
   ],
   "note": "Content for all answers in {0,1,2}; termination for all answers. C11_schema_types: the real dependsOn only ever answers 0, 1 or 2."
  },
  {
   "property": "C12",
   "status": "proved",
   "theorems": [
    "Corda.Props.C12_no_empty_level"
   ],
   "note": ""
  },
  {
   "property": "C13",
   "status": "partial",
   "theorems": [
    "Corda.Props.C13_lists_partial",
    "Corda.Props.C13_recursive_partial",
    "Corda.Props.C13_seen_partial",
    "Corda.Props.C13_order_partial",
    "Corda.Props.C13_transitive_partial",
    "Corda.Props.C13_needed_first_partial",
    "Corda.Props.C13_users_first_partial",
    "Corda.Props.C13_three_partial",
    "Corda.Props.C13_order_violated",
    "Corda.Props.C13_schema_types_partial",
    "Corda.Props.C13_schema_types_violated"
   ],
   "note": "False as stated (acyclic consistent four-type witness; for real schema types: map over an enum). Proved for any acyclic relation and at most three types, and for any number when each inserted type sits transitively, in particular for transitive relations, for needed-first and for users-first insertion orders; C13_schema_types_partial carries this to the real dependsOn on regular type pairs, C13_recursive_partial to types that also name themselves, C13_lists_partial to classes with lists, where the library's answers miss needs (C13_seen_partial is the general form)."
  },
  {
   "property": "C14",
   "status": "partial",
   "theorems": [
    "Corda.Props.C14_antisymmetric_partial",
    "Corda.Props.C14_antisymmetric_violated"
   ],
   "note": "False as stated: enum/map, array/restricted, nested generics, and undefined behaviour for custom fields. Proved for Regular pairs, all other kind combinations."
  },
  {
   "property": "C15",
   "status": "partial",
   "theorems": [
    "Corda.Props.C15_answers_reflect_use_partial",
    "Corda.Props.C15_answers_reflect_use_violated"
   ],
   "note": "False as stated: arrays inside lists and maps are not seen; a map over an enum answers 1 instead of 2. Proved for Regular pairs."
  },
  {
   "property": "C16",
   "status": "proved",
   "theorems": [
    "Corda.Props.C16_lookup",
    "Corda.Props.C16_found_iff"
   ],
   "note": ""
  },
  {
   "property": "C17",
   "status": "partial",
   "theorems": [
    "Corda.Props.C17_field_classification_partial",
    "Corda.Props.C17_field_reports",
    "Corda.Props.C17_requirements_decompose",
    "Corda.Props.C17_field_classification_violated"
   ],
   "note": "False as stated: type names ']' and 'p]', empty requirement, and map requirement without comma. Proved otherwise; C17_field_reports says what a field of each class reports of itself."
  },
  {
   "property": "C18",
   "status": "partial",
   "theorems": [
    "Corda.Props.C18_restricted_partial",
    "Corda.Props.C18_restricted_violated"
   ],
   "note": "False as stated: arrays of arrays, raw list names, unnamed list. Proved otherwise."
  },
  {
   "property": "C19",
   "status": "proved",
   "theorems": [
    "Corda.Props.C19_field_round_trip",
    "Corda.Props.C19_field_written"
   ],
   "note": "field description written by makeProton and read back equals the directly constructed field, at any position"
  },
  {
   "property": "C20",
   "status": "proved",
   "theorems": [
    "Corda.Props.C20_composite_round_trip",
    "Corda.Props.C20_composite_fields"
   ],
   "note": "composite with any number of fields; element-wise round trip"
  },
  {
   "property": "C21",
   "status": "proved",
   "theorems": [
    "Corda.Props.C21_restricted_round_trip",
    "Corda.Props.C21_restricted_content",
    "Corda.Props.C21_enum_read",
    "Corda.Props.C21_boxed"
   ],
   "note": "list/map types written and read back; enum elements read with their choices"
  },
  {
   "property": "C22",
   "status": "proved",
   "theorems": [
    "Corda.Props.C22_envelope_round_trip",
    "Corda.Props.C22_envelope_content",
    "Corda.Props.C22_envelope_only"
   ],
   "note": "envelope around any list of type descriptions; the schema is the directly constructed types collected in order. C22_envelope_round_trip gives the outcome also where ordering fails (C13, C14 say when)."
  },
  {
   "property": "C23",
   "status": "partial",
   "theorems": [
    "Corda.Props.C23_malformed_partial",
    "Corda.Props.C23_malformed_violated"
   ],
   "note": "false: null registry entry, null elements and unchecked casts. Partial: reading is defined for every tree whose descriptor numbers and type names satisfy the stated preconditions"
  },
  {
   "property": "C24",
   "status": "proved",
   "theorems": [
    "Corda.Props.C24_reader_validates",
    "Corda.Props.C24_validate_exact",
    "Corda.Props.C24_registry",
    "Corda.Props.C24_strip",
    "Corda.Props.C24_names"
   ],
   "note": "every element reader validates its identifier; registry and names are exact"
  },
  {
   "property": "C25",
   "status": "proved",
   "theorems": [
    "Corda.Props.C25_envelope_data",
    "Corda.Props.C25_element_data",
    "Corda.Props.C25_dump_data",
    "Corda.Props.C25_moves"
   ],
   "note": "For reading the envelope, every schema element, dumping the contents, the data and the schema (C59); any tree, position and outcome, undefined behaviour included."
  },
  {
   "property": "C26",
   "status": "proved",
   "theorems": [
    "Corda.Props.C26_envelope_cursor",
    "Corda.Props.C26_element_cursor",
    "Corda.Props.C26_envelope_again",
    "Corda.Props.C26_contents_cursor",
    "Corda.Props.C26_inspect_cursor",
    "Corda.Props.C26_inspect_again"
   ],
   "note": "Cursor restored for every tree and outcome, for reading an envelope and for inspecting the whole contents; a second inspection gives what the first gave."
  },
  {
   "property": "C27",
   "status": "partial",
   "theorems": [
    "Corda.Props.C27_attest_exact_partial",
    "Corda.Props.C27_attest_exact_violated"
   ],
   "note": "False for strings: the string check without the null option never throws (C27_attest_exact_violated). All other checks are proved exact."
  },
  {
   "property": "C28",
   "status": "proved",
   "theorems": [
    "Corda.Props.C28_string_read",
    "Corda.Props.C28_number_reads",
    "Corda.Props.C28_getters"
   ],
   "note": "Proved for all cursors and both tolerance settings, with the behaviour of the typed number reads."
  },
  {
   "property": "C29",
   "status": "partial",
   "theorems": [
    "Corda.Props.C29_balanced_partial",
    "Corda.Props.C29_defined",
    "Corda.Props.C29_char_pointer_violated"
   ],
   "note": "Balanced for every object graph, payload position and set of registered classes, also on the exception path; no assertion fails. False for pointers to characters: the debugging trace prints them as C strings, which is undefined behaviour (C29_char_pointer_violated); C29_defined says nothing else is."
  },
  {
   "property": "C30",
   "status": "proved",
   "theorems": [
    "Corda.Props.C30_payload",
    "Corda.Props.C30_blob",
    "Corda.Props.C30_outcome",
    "Corda.Props.C30_succeeds"
   ],
   "note": "Payload tree equals an independently written tree; C30_outcome characterises exactly when serialisation succeeds, throws (a class sharing name and fingerprint with a container) or is undefined (a pointer to a character)."
  },
  {
   "property": "C31",
   "status": "proved",
   "theorems": [
    "Corda.Props.C31_classes_once"
   ],
   "note": "The output envelope is given in closed form by a duplicate-free list of class descriptions whose keys are exactly the classes written."
  },
  {
   "property": "C32",
   "status": "proved",
   "theorems": [
    "Corda.Props.C32_properties",
    "Corda.Props.C32_order",
    "Corda.Props.C32_words",
    "Corda.Props.C32_alphabetical"
   ],
   "note": "First-write-wins for every property of every class; C32_order gives the (alphabetical) order, the cause of C38."
  },
  {
   "property": "C33",
   "status": "partial",
   "theorems": [
    "Corda.Props.C33_what_comes_back",
    "Corda.Props.C33_object_round_trip_partial",
    "Corda.Props.C33_object_round_trip_violated"
   ],
   "note": "holds for all class shapes and all objects without null pointers, pointers to characters and NULs in strings; C33_what_comes_back says what is read in general"
  },
  {
   "property": "C34",
   "status": "partial",
   "theorems": [
    "Corda.Props.C34_null_pointers_violated",
    "Corda.Props.C34_null_string_violated"
   ],
   "note": "false for every object with a null pointer; for string pointers undefined behaviour"
  },
  {
   "property": "C35",
   "status": "partial",
   "theorems": [
    "Corda.Props.C35_string_received",
    "Corda.Props.C35_strings_partial",
    "Corda.Props.C35_strings_violated"
   ],
   "note": "false exactly for strings with a NUL, which are cut"
  },
  {
   "property": "C36",
   "status": "partial",
   "theorems": [
    "Corda.Props.C36_typed_reads_partial",
    "Corda.Props.C36_typed_reads_violated"
   ],
   "note": "holds for all types but string; reading a string where there is none is undefined behaviour"
  },
  {
   "property": "C37",
   "status": "partial",
   "theorems": [
    "Corda.Props.C37_repeatable_violated"
   ],
   "note": "false for every serialised object: the second read throws"
  },
  {
   "property": "C38",
   "status": "partial",
   "theorems": [
    "Corda.Props.C38_same_blob",
    "Corda.Props.C38_any_order",
    "Corda.Props.C38_flat",
    "Corda.Props.C38_ints",
    "Corda.Props.C38_ints_exact",
    "Corda.Props.C38_inspect_written_partial",
    "Corda.Props.C38_inspect_flat",
    "Corda.Props.C38_inspect_written_violated"
   ],
   "note": "The payload is in the order of writing, the schema lists properties alphabetically, and the inspector pairs them by position. Proved for graphs that write in alphabetical order; for objects of primitives without any further assumption. In any order: C38_flat says what is shown of an object of primitives (without characters), C38_ints of integers, and C38_ints_exact when that is right; C38_any_order and C38_same_blob say what is shown of graphs of objects, lists and maps whose properties fit place by place. Missing: objects with objects or containers in the place of something else; characters are never shown (C115_characters)."
  },
  {
   "property": "C39",
   "status": "proved",
   "theorems": [
    "Corda.Props.C39_lists",
    "Corda.Props.C39_blob"
   ],
   "note": "For readers in the state `process` leaves them (`Ready`), any payload tree of the schema's types, both orders of evaluation as far as no map type is involved."
  },
  {
   "property": "C40",
   "status": "partial",
   "theorems": [
    "Corda.Props.C40_maps_partial",
    "Corda.Props.C40_exchanged",
    "Corda.Props.C40_maps_violated",
    "Corda.Props.C40_blob_partial"
   ],
   "note": "Holds when call arguments are evaluated left to right. MapReader.cxx passes the two dumps as arguments of one call; evaluated right to left, keys and values are swapped or the wrong reader is used."
  },
  {
   "property": "C41",
   "status": "proved",
   "theorems": [
    "Corda.Props.C41_objects",
    "Corda.Props.C41_blob"
   ],
   "note": "Any nesting depth; composite, list, array, map and enum types; both orders of evaluation as far as no map type is involved."
  },
  {
   "property": "C42",
   "status": "partial",
   "theorems": [
    "Corda.Props.C42_zeros_violated",
    "Corda.Props.C42_texts_violated",
    "Corda.Props.C42_containers_violated",
    "Corda.Props.C42_null_elements_partial",
    "Corda.Props.C42_null_elements_violated"
   ],
   "note": "True for composites. A null among primitives is shown as 0 or false, or throws; a null list throws. C42_zeros_violated: any list of numbers, truth values or bytes with nulls is shown exactly as the list with zeros in their place. C42_texts_violated, C42_containers_violated: of any list of texts, or of lists, maps or constants, with a null nothing is shown."
  },
  {
   "property": "C43",
   "status": "proved",
   "theorems": [
    "Corda.Props.C43_readers_exist",
    "Corda.Props.C43_structure"
   ],
   "note": "For schemas whose fields are as `Field::make` makes them; any factory without null entries."
  },
  {
   "property": "C44",
   "status": "partial",
   "theorems": [
    "Corda.Props.C44_missing_reported_partial",
    "Corda.Props.C44_missing_reported_violated"
   ],
   "note": "True for plain types and a factory without null entries; a failed lookup leaves a null entry that a later schema trips over, and a `*` field without requirements is undefined behaviour."
  },
  {
   "property": "C45",
   "status": "partial",
   "theorems": [
    "Corda.Props.C45_reuse_partial",
    "Corda.Props.C45_reuse_violated",
    "Corda.Props.C45_reuse_text_partial"
   ],
   "note": "True if types of the same name are the same in all the schemas; otherwise the old reader stays."
  },
  {
   "property": "C46",
   "status": "partial",
   "theorems": [
    "Corda.Props.C46_custom_used_partial",
    "Corda.Props.C46_custom_used_violated"
   ],
   "note": "True for types not processed before the custom serialiser was installed and for a name that is not primitive."
  },
  {
   "property": "C47",
   "status": "proved",
   "theorems": [
    "Corda.Props.C47_format",
    "Corda.Props.C47_only",
    "Corda.Props.C47_integers"
   ],
   "note": "Stated against an inductively defined canonical rendering, both directions."
  },
  {
   "property": "C48",
   "status": "proved",
   "theorems": [
    "Corda.Props.C48_lists"
   ],
   "note": "Numbers, strings and truth values are shown; other values by the name of their type. Empty lists are shown as <<<Empty List>>>."
  },
  {
   "property": "C49",
   "status": "partial",
   "theorems": [
    "Corda.Props.C49_maps_partial",
    "Corda.Props.C49_maps_violated",
    "Corda.Props.C49_single_violated"
   ],
   "note": "dumpMap steps before and after each element: entry i of a map is made of elements 3i+1 and 3i+2 (or the last). Exact text proved for maps whose keys and values are of one kind; otherwise the dump may throw."
  },
  {
   "property": "C50",
   "status": "proved",
   "theorems": [
    "Corda.Props.C50_java_class_name",
    "Corda.Props.C50_every_name",
    "Corda.Props.C50_no_scope_operator"
   ],
   "note": "Exact result for every text whose colons come in pairs (C50_every_name: every such text is covered); absence of '::' for every string."
  },
  {
   "property": "C51",
   "status": "proved",
   "theorems": [
    "Corda.Props.C51_generated_names_decompose"
   ],
   "note": ""
  },
  {
   "property": "C52",
   "status": "partial",
   "theorems": [
    "Corda.Props.C52_other_class_violated"
   ],
   "note": "false: neither names nor fingerprints are compared"
  },
  {
   "property": "C53",
   "status": "partial",
   "theorems": [
    "Corda.Props.C53_fewer_violated",
    "Corda.Props.C53_more_violated"
   ],
   "note": "false: fewer properties are read silently, for more the last value is repeated"
  },
  {
   "property": "C54",
   "status": "partial",
   "theorems": [
    "Corda.Props.C54_vectors_violated"
   ],
   "note": "false: reading a vector always throws"
  },
  {
   "property": "C55",
   "status": "partial",
   "theorems": [
    "Corda.Props.C55_any_payload_partial",
    "Corda.Props.C55_any_payload_violated"
   ],
   "note": "holds for classes without strings and vectors"
  },
  {
   "property": "C56",
   "status": "proved",
   "theorems": [
    "Corda.Props.C56_open_content",
    "Corda.Props.C56_open_described",
    "Corda.Props.C56_open_objects"
   ],
   "note": "content and success proved; success with containers under the condition that descriptions construct"
  },
  {
   "property": "C57",
   "status": "proved",
   "theorems": [
    "Corda.Props.C57_inspect",
    "Corda.Props.C57_inspect_regular"
   ],
   "note": "End to end: envelope, schema, ordering, reader construction, reading, rendering. Values without custom types; maps if call arguments are evaluated left to right."
  },
  {
   "property": "C58",
   "status": "proved",
   "theorems": [
    "Corda.Props.C58_position",
    "Corda.Props.C58_defined"
   ],
   "note": "Exact: the precondition is necessary and sufficient."
  },
  {
   "property": "C59",
   "status": "proved",
   "theorems": [
    "Corda.Props.C59_dump_cursor",
    "Corda.Props.C59_dump_again"
   ],
   "note": "All three forms; any tree and position."
  },
  {
   "property": "C60",
   "status": "proved",
   "theorems": [
    "Corda.Props.C60_raw_text",
    "Corda.Props.C60_written",
    "Corda.Props.C60_second_part"
   ],
   "note": "Exact text, for any lists of types; null and missing texts included. C60_second_part: any second part of a descriptor is shown in brief."
  },
  {
   "property": "C61",
   "status": "proved",
   "theorems": [
    "Corda.Props.C61_same_text",
    "Corda.Props.C61_payload_unseen"
   ],
   "note": "All three forms and any tree for the first claim; the envelopes of C60 for the second."
  },
  {
   "property": "C62",
   "status": "partial",
   "theorems": [
    "Corda.Props.C62_choices_violated",
    "Corda.Props.C62_choices_unseen_violated",
    "Corda.Props.C62_text_determines_partial"
   ],
   "note": "False: enumeration constants are not shown. Proved that everything else can be read back from the text if names fit on a line and names of interfaces contain no blanks."
  },
  {
   "property": "C63",
   "status": "proved",
   "theorems": [
    "Corda.Props.C63_avro_text"
   ],
   "note": "Exact text against an independently written one; names shorter than 2^63, leaf types that are proper names."
  },
  {
   "property": "C64",
   "status": "partial",
   "theorems": [
    "Corda.Props.C64_avro_json_partial",
    "Corda.Props.C64_one_class_partial",
    "Corda.Props.C64_list_violated",
    "Corda.Props.C64_map_violated",
    "Corda.Props.C64_comma_violated"
   ],
   "note": "False: item types are not quoted, a quote is missing for maps, and a comma is left over if the last type is not a class. Proved to be JSON exactly when no field has a container type and the last type is a class (or there is none), for quotable names."
  },
  {
   "property": "C65",
   "status": "partial",
   "theorems": [
    "Corda.Props.C65_boxed_list_partial",
    "Corda.Props.C65_boxed_map_partial",
    "Corda.Props.C65_boxed_array_partial",
    "Corda.Props.C65_enum_name_partial",
    "Corda.Props.C65_boxed_names_violated"
   ],
   "note": "False: the dots of the patterns match anything and the patterns match inside longer names. Proved for all names whose leaves are boxed types or do not look like them."
  },
  {
   "property": "C66",
   "status": "partial",
   "theorems": [
    "Corda.Props.C66_boxed_blob_partial",
    "Corda.Props.C66_boxed_blob_violated"
   ],
   "note": "False: only the name of the container type is rewritten, not the name by which a field refers to it, so the reader is not found. Proved if boxed types occur only in the former."
  },
  {
   "property": "C67",
   "status": "partial",
   "theorems": [
    "Corda.Props.C67_raw_defined_partial",
    "Corda.Props.C67_avro_defined_partial",
    "Corda.Props.C67_amqp_defined",
    "Corda.Props.C67_dump_violated",
    "Corda.Props.C67_bare_payload_avro"
   ],
   "note": "Proved for every tree that satisfies what the dumps rely on without checking (RawShowable, AvroShowable: identifiers are known, what is dispatched on is described, field types are well-formed names, the schema has one list); everything else in the tree is arbitrary. The AMQP form is always defined. C67_dump_violated has eight blobs with undefined behaviour; the first is a valid blob: the payload is a bare string. The exact outcome for every tree is C90 and C91."
  },
  {
   "property": "C68",
   "status": "proved",
   "theorems": [
    "Corda.Props.C68_data_dumper",
    "Corda.Props.C68_schema_dumper",
    "Corda.Props.C68_blob_inspector",
    "Corda.Props.C68_silent_failure"
   ],
   "note": "Exact characterisation of success for the three tools; failure status, and nothing written by the tool itself. Decoder and file system are parameters."
  },
  {
   "property": "C69",
   "status": "partial",
   "theorems": [
    "Corda.Props.C69_data_dumper_partial",
    "Corda.Props.C69_schema_dumper_raw_partial",
    "Corda.Props.C69_blob_inspector_partial",
    "Corda.Props.C69_not_terminated",
    "Corda.Props.C69_violated",
    "Corda.Props.C69_wrong_length_violated"
   ],
   "note": "False: assertion on undecodable or trailing bytes, header-only files, encoding bytes above 3, uncaught exceptions. Exactly when data-dumper, raw schema-dumper and blob-inspector return a status; the first two are never ended by an exception. C69_wrong_length_violated: with the AMQP decoder, every encoding cut short or followed by more bytes fails the assertion in every tool."
  },
  {
   "property": "C70",
   "status": "proved",
   "theorems": [
    "Corda.Props.C70_saved",
    "Corda.Props.C70_flat_object"
   ],
   "note": "For every decoder that returns the written tree for the saved bytes; members in alphabetical order and of the primitive types the inspector shows."
  },
  {
   "property": "C71",
   "status": "proved",
   "theorems": [
    "Corda.Props.C71_decoded",
    "Corda.Props.C71_prefix_free",
    "Corda.Props.C71_encodable",
    "Corda.Props.C71_truncated",
    "Corda.Props.C71_encoding_irrelevant"
   ],
   "note": "The relation Enc in Spec/Wire.lean lists the encodings; the decoder of Model/Wire.lean finds the tree for each. Arrays of described values are left out."
  },
  {
   "property": "C72",
   "status": "proved",
   "theorems": [
    "Corda.Props.C72_encodable",
    "Corda.Props.C72_round_trip",
    "Corda.Props.C72_inspected"
   ],
   "note": "C33 and C38 followed through encoding, toFile, loading and decoding; every written tree is encodable."
  },
  {
   "property": "C73",
   "status": "partial",
   "theorems": [
    "Corda.Props.C73_samples_partial",
    "Corda.Props.C73_samples_reencoded_partial",
    "Corda.Props.C73_references",
    "Corda.Props.C73_samples_violated"
   ],
   "note": "All 25 sample files; false for _iii_ (C38), and for maps only if keys are read before values (C40)."
  },
  {
   "property": "C74",
   "status": "partial",
   "theorems": [
    "Corda.Props.C74_preview_violated",
    "Corda.Props.C74_headers_partial"
   ],
   "note": "False: both headers in the table are the same bytes; the header of the preview is refused for every file."
  },
  {
   "property": "C75",
   "status": "partial",
   "theorems": [
    "Corda.Props.C75_conforming",
    "Corda.Props.C75_conforming_file",
    "Corda.Props.C75_writer01",
    "Corda.Props.C75_writer02",
    "Corda.Props.C75_writer03",
    "Corda.Props.C75_writer05",
    "Corda.Props.C75_writer06",
    "Corda.Props.C75_writer07",
    "Corda.Props.C75_writer08_partial",
    "Corda.Props.C75_writer09_partial",
    "Corda.Props.C75_writer10_partial",
    "Corda.Props.C75_writer11_partial",
    "Corda.Props.C75_writer12_partial",
    "Corda.Props.C75_names",
    "Corda.Props.C75_writer04_violated",
    "Corda.Props.C75_empty_violated",
    "Corda.Props.C75_maps_violated"
   ],
   "note": "Proved for every schema the inspector can handle and all objects of its classes, and for writer-test-01, 02, 03, 05, 06, 07 with all values; for 08, 09, 11 and 12 if the containers are not empty, and 10 to 12 for one order of evaluation. Violated by writer-test-04 (float), empty containers, and maps with the other order of evaluation. C75_names: the names in the model are the ones in the sources of the programs."
  },
  {
   "property": "C76",
   "status": "partial",
   "theorems": [
    "Corda.Props.C76_reader01",
    "Corda.Props.C76_reader01_writer01",
    "Corda.Props.C76_reader02",
    "Corda.Props.C76_reader03",
    "Corda.Props.C76_reader04",
    "Corda.Props.C76_reader05",
    "Corda.Props.C76_reader06_violated"
   ],
   "note": "Proved for reader-test-01 to 05 with all values (strings up to the first NUL). Violated by reader-test-06 for every list."
  },
  {
   "property": "C77",
   "status": "partial",
   "theorems": [
    "Corda.Props.C77_inspect_any",
    "Corda.Props.C77_blob",
    "Corda.Props.C77_surplus",
    "Corda.Props.C77_missing",
    "Corda.Props.C77_float",
    "Corda.Props.C77_keys_in_lists",
    "Corda.Props.C77_undefined",
    "Corda.Props.C77_mistyped_violated",
    "Corda.Props.C77_other_class_violated",
    "Corda.Props.C77_bigger_class_violated"
   ],
   "note": "The outcome is proved to be the one of the description for every payload, with the consequences listed. That a payload which contradicts its schema is refused is violated: wrong primitive values are shown as zero, objects of another class under the wrong names, or an assertion fails."
  },
  {
   "property": "C78",
   "status": "partial",
   "theorems": [
    "Corda.Props.C78_listing_partial",
    "Corda.Props.C78_same_listing_partial",
    "Corda.Props.C78_inserted_partial",
    "Corda.Props.C78_listing_violated"
   ],
   "note": "names without line feeds; a name with a line feed is listed like two types."
  },
  {
   "property": "C79",
   "status": "partial",
   "theorems": [
    "Corda.Props.C79_schema_partial",
    "Corda.Props.C79_composite_partial",
    "Corda.Props.C79_restricted_partial",
    "Corda.Props.C79_composite_headings_partial",
    "Corda.Props.C79_restricted_headings_partial",
    "Corda.Props.C79_distinct_violated",
    "Corda.Props.C79_notation_partial",
    "Corda.Props.C79_notation"
   ],
   "note": "texts without line feeds; enumerations with different constants, and fields with different requirements, print alike. C79_notation_partial: two types printed through their base class that print alike have the same name, fingerprint and kind."
  },
  {
   "property": "C80",
   "status": "partial",
   "theorems": [
    "Corda.Props.C80_read_partial",
    "Corda.Props.C80_agree_partial",
    "Corda.Props.C80_float_violated",
    "Corda.Props.C80_binary_violated",
    "Corda.Props.C80_objects_violated",
    "Corda.Props.C80_write_violated"
   ],
   "note": "holds for int, long, double, boolean and string; a float throws, binary reads as false, objects and containers give fixed answers, write does nothing, or throws for public keys."
  },
  {
   "property": "C81",
   "status": "partial",
   "theorems": [
    "Corda.Props.C81_integers",
    "Corda.Props.C81_integers_differ",
    "Corda.Props.C81_format",
    "Corda.Props.C81_double",
    "Corda.Props.C81_float",
    "Corda.Props.C81_rounding_unique",
    "Corda.Props.C81_special",
    "Corda.Props.C81_distinct_violated",
    "Corda.Props.C81_distinct_partial"
   ],
   "note": "Integers, doubles and floats of every bit pattern are covered exactly. That different doubles have different texts is false (six decimals); proved that equal texts mean a difference of at most a millionth."
  },
  {
   "property": "C82",
   "status": "partial",
   "theorems": [
    "Corda.Props.C82_accepted",
    "Corda.Props.C82_content",
    "Corda.Props.C82_proper",
    "Corda.Props.C82_as_proper",
    "Corda.Props.C82_only_proper_violated"
   ],
   "note": "C82_accepted is the exact characterisation for any tree; the intended reading, that only proper encodings are accepted, is refuted by C82_only_proper_violated."
  },
  {
   "property": "C83",
   "status": "partial",
   "theorems": [
    "Corda.Props.C83_name",
    "Corda.Props.C83_value",
    "Corda.Props.C83_names_distinct",
    "Corda.Props.C83_primitive_partial",
    "Corda.Props.C83_primitive_value_partial",
    "Corda.Props.C83_primitive_violated"
   ],
   "note": "The names are proved. is_primitive is wrong for null and timestamps (C83_primitive_violated); C83_primitive_partial is the exact answer."
  },
  {
   "property": "C84",
   "status": "partial",
   "theorems": [
    "Corda.Props.C84_text_partial",
    "Corda.Props.C84_inspect_partial",
    "Corda.Props.C84_exact",
    "Corda.Props.C84_text_violated"
   ],
   "note": "C84_text_partial needs strings without quotation marks and enumeration constants without blanks and commas; without that it fails (C84_text_violated). C84_exact says what being alike means without doubles, binary values and constants."
  },
  {
   "property": "C85",
   "status": "proved",
   "theorems": [
    "Corda.Props.C85_data",
    "Corda.Props.C85_payload_alone",
    "Corda.Props.C85_one_entry"
   ],
   "note": "Exact description of dumpData on every tree and cursor (Spec/AnyData), with C85_payload_alone and C85_one_entry as consequences. The entry counting of maps is the code's own (one pn_data_next too many per entry); C49 says what that means for maps of primitives."
  },
  {
   "property": "C86",
   "status": "partial",
   "theorems": [
    "Corda.Props.C86_single_partial",
    "Corda.Props.C86_double",
    "Corda.Props.C86_many_types",
    "Corda.Props.C86_char_pointer_violated",
    "Corda.Props.C86_int_list_violated",
    "Corda.Props.C86_single_lists_violated",
    "Corda.Props.C86_ordering",
    "Corda.Props.C86_two_inserts",
    "Corda.Props.C86_generic_names",
    "Corda.Props.C86_list_depends",
    "Corda.Props.C86_map_depends1",
    "Corda.Props.C86_map_depends2",
    "Corda.Props.C86_makePrim",
    "Corda.Props.C86_java_names",
    "Corda.Props.C86_vectors_violated",
    "Corda.Props.C86_texts",
    "Corda.Props.C86_values"
   ],
   "note": "Model/UnitTests transcribes the tests. Four of them do not pass and are the _violated theorems: RTT.singlePointers prints a char pointer that is no text (undefined), RTT.int_list and RTT.SingleLists throw, the tests of the vector class expect a fingerprint and a spelling the code does not give. C86_single_partial leaves out pointers to characters. The typeName tests that only concern the compiler's demangler are not modelled."
  },
  {
   "property": "C87",
   "status": "proved",
   "theorems": [
    "Corda.Props.C87_answers",
    "Corda.Props.C87_order",
    "Corda.Props.C87_listing"
   ],
   "note": "Spec/Essence says what is left of a type; the proof is naturality of the insertion (Lemmas/Relabel) and one case analysis of dependsOn."
  },
  {
   "property": "C88",
   "status": "proved",
   "theorems": [
    "Corda.Props.C88_any",
    "Corda.Props.C88_succeeds",
    "Corda.Props.C88_fits",
    "Corda.Props.C88_descriptor",
    "Corda.Props.C88_extra"
   ],
   "note": "C88_any gives the outcome for every class and tree; C88_succeeds and C88_fits say when there is an object and that its properties have the declared types; C88_descriptor and C88_extra name what is not looked at (the reason for C52 and C53)."
  },
  {
   "property": "C89",
   "status": "proved",
   "theorems": [
    "Corda.Props.C89_element",
    "Corda.Props.C89_any",
    "Corda.Props.C89_depth",
    "Corda.Props.C89_undefined"
   ],
   "note": "C89_any and C89_element give the outcome for every tree against Spec/AnySchema, where the constructors of fields and restricted types and the insertion of a type are those of the model; C89_depth: the bound on the nesting is no restriction; C89_undefined: trees with undefined behaviour (see C23)."
  },
  {
   "property": "C90",
   "status": "proved",
   "theorems": [
    "Corda.Props.C90_element",
    "Corda.Props.C90_any",
    "Corda.Props.C90_none",
    "Corda.Props.C90_depth",
    "Corda.Props.C90_odd"
   ],
   "note": "exact outcome for any tree; C60, C67 are consequences for the trees they speak of"
  },
  {
   "property": "C91",
   "status": "proved",
   "theorems": [
    "Corda.Props.C91_names",
    "Corda.Props.C91_name_depth",
    "Corda.Props.C91_element",
    "Corda.Props.C91_any",
    "Corda.Props.C91_none",
    "Corda.Props.C91_depth",
    "Corda.Props.C91_odd_names",
    "Corda.Props.C91_odd"
   ],
   "note": "Texts of 2^63 characters or more are excluded (SmallTexts); no such tree fits in memory. Undefined behaviour is an outcome of its own."
  },
  {
   "property": "C92",
   "status": "proved",
   "theorems": [
    "Corda.Props.C92_prepare",
    "Corda.Props.C92_any",
    "Corda.Props.C92_none",
    "Corda.Props.C92_depth",
    "Corda.Props.C92_tool",
    "Corda.Props.C92_transforms",
    "Corda.Props.C92_clashes",
    "Corda.Props.C92_missing",
    "Corda.Props.C92_envelopes"
   ],
   "note": "The theorems cover every tree; undefined behaviour is an outcome of its own. C92_clashes and C92_missing are concrete outcomes on blobs no Corda node would write."
  },
  {
   "property": "C93",
   "status": "proved",
   "theorems": [
    "Corda.Props.C93_session",
    "Corda.Props.C93_first",
    "Corda.Props.C93_unharmed",
    "Corda.Props.C93_again",
    "Corda.Props.C93_vain",
    "Corda.Props.C93_stale",
    "Corda.Props.C93_bare"
   ],
   "note": "Any sequence of trees with one factory, failures included; the statement itself says where earlier blobs matter, with witnesses."
  },
  {
   "property": "C94",
   "status": "proved",
   "theorems": [
    "Corda.Props.C94_any",
    "Corda.Props.C94_session",
    "Corda.Props.C94_value",
    "Corda.Props.C94_complete",
    "Corda.Props.C94_one_only",
    "Corda.Props.C94_leftover"
   ],
   "note": "Every object, every sequence of writes and blobs made in between, failing or not. C94_one_only and C94_leftover say what a blob cannot be used for."
  },
  {
   "property": "C95",
   "status": "partial",
   "theorems": [
    "Corda.Props.C95_good_names",
    "Corda.Props.C95_good_names_text",
    "Corda.Props.C95_lists_partial",
    "Corda.Props.C95_leaf_lists_partial",
    "Corda.Props.C95_orders",
    "Corda.Props.C95_list_chain_violated",
    "Corda.Props.C95_names_partial",
    "Corda.Props.C95_needed_first_partial",
    "Corda.Props.C95_users_first_partial",
    "Corda.Props.C95_order_decides",
    "Corda.Props.C95_shown_or_rejected",
    "Corda.Props.C95_cycle_rejected",
    "Corda.Props.C95_plain_cycle_rejected",
    "Corda.Props.C95_three",
    "Corda.Props.C95_same_text",
    "Corda.Props.C95_names_violated",
    "Corda.Props.C95_chain_violated",
    "Corda.Props.C95_lists_violated",
    "Corda.Props.C95_linked"
   ],
   "note": "False as stated (C95_names_violated: order, customer, address and city; renaming one class changes the outcome; C95_lists_violated: so does the package of classes with lists; C95_list_chain_violated: lists of objects with lists fail under names that are fine otherwise). Proved for all classes, lists and maps the library can make types of: shown or rejected (C95_shown_or_rejected), the library's order decides (C95_order_decides), a cycle is always rejected (C95_cycle_rejected). For plain classes: exactly when for up to three classes, sufficient conditions on the names for any number, and exactly when there are names at all under which an object is shown (C95_good_names). For lists and maps of classes with primitive members: names after those of the classes used suffice (C95_leaf_lists_partial). C95_linked and C95_orders instantiate these for linked lists and orders of any length. What is missing: conditions on names for deeper nesting of lists, where no naming convention always works."
  },
  {
   "property": "C96",
   "status": "proved",
   "theorems": [
    "Corda.Props.C96_same",
    "Corda.Props.C96_bound",
    "Corda.Props.C96_types",
    "Corda.Props.C96_opened"
   ],
   "note": "Holds for all types and answers (C96_bound, C96_types, C96_opened); C96_same: the account of the questions leaves the results as in Model/Ordering. Counts calls of dependsOn, not the time of one call."
  },
  {
   "property": "C97",
   "status": "proved",
   "theorems": [
    "Corda.Props.C97_end",
    "Corda.Props.C97_output",
    "Corda.Props.C97_never_alone",
    "Corda.Props.C97_refused",
    "Corda.Props.C97_script",
    "Corda.Props.C97_values",
    "Corda.Props.C97_not_only_the_dump",
    "Corda.Props.C97_values_in_maps",
    "Corda.Props.C97_trace"
   ],
   "note": "Full standard output of the data dumper, trace included, for every tree. __FILE__ is a parameter; each printed piece is flushed by std::endl, so what was printed before an exception stays. Undefined behaviour keeps its trace in the model, but no theorem about the process relies on it."
  },
  {
   "property": "C98",
   "status": "partial",
   "theorems": [
    "Corda.Props.C98_decoded",
    "Corda.Props.C98_inspector_partial",
    "Corda.Props.C98_data_partial",
    "Corda.Props.C98_raw_partial",
    "Corda.Props.C98_avro",
    "Corda.Props.C98_inspector_violated",
    "Corda.Props.C98_data_violated",
    "Corda.Props.C98_raw_violated",
    "Corda.Props.C98_inspector_written",
    "Corda.Props.C98_data_written",
    "Corda.Props.C98_raw_written",
    "Corda.Props.C98_data_written_violated",
    "Corda.Props.C98_inspector_written_violated"
   ],
   "note": "The dumps as functions of the file: bounded under conditions that exclude that a part is shown twice, exponential without them (three families of witnesses); Avro without condition. For saved files the conditions are given in terms of the object, with witnesses that they are needed; the raw schema of a saved file is always bounded. Partial: the claim is false of three of the four dumps."
  },
  {
   "property": "C99",
   "status": "partial",
   "theorems": [
    "Corda.Props.C99_end",
    "Corda.Props.C99_raw_output",
    "Corda.Props.C99_avro_output",
    "Corda.Props.C99_avro_never_alone",
    "Corda.Props.C99_avro_never_json_violated",
    "Corda.Props.C99_raw_alone",
    "Corda.Props.C99_raw_lines",
    "Corda.Props.C99_avro_lines",
    "Corda.Props.C99_raw_script",
    "Corda.Props.C99_avro_script",
    "Corda.Props.C99_refused",
    "Corda.Props.C99_not_json_violated",
    "Corda.Props.C99_raw_element",
    "Corda.Props.C99_avro_element",
    "Corda.Props.C99_avro_first",
    "Corda.Props.C99_start",
    "Corda.Props.C99_raw",
    "Corda.Props.C99_avro",
    "Corda.Props.C99_raw_result",
    "Corda.Props.C99_avro_result"
   ],
   "note": "C99_raw/C99_avro: for every tree and every position, the trace printed by a dump is that of the direct description, and outcome and cursor are unchanged; C99_raw_output/C99_avro_output: all of standard output; C99_end; C99_refused; C99_raw_lines/C99_avro_lines: the lines there are; C99_raw_script/C99_avro_script: line by line for envelopes as Corda writes them; C99_avro_never_alone; C99_raw_alone: exactly when the raw dump comes alone; C99_avro_never_json_violated: the last part is false for every blob, C99_not_json_violated: with a blob whose dump alone is JSON. Standard error is in C117."
  },
  {
   "property": "C100",
   "status": "proved",
   "theorems": [
    "Corda.Props.C100_end",
    "Corda.Props.C100_output",
    "Corda.Props.C100_silent",
    "Corda.Props.C100_never_alone",
    "Corda.Props.C100_hidden",
    "Corda.Props.C100_int_told",
    "Corda.Props.C100_schema",
    "Corda.Props.C100_quadratic",
    "Corda.Props.C100_ints_differ"
   ],
   "note": "The trace of the blob inspector (Model/InspectTrace.lean: schema readers, field and type constructors, dependency questions, ordering, readers' factory, payload readers). C100_hidden compares two runs; it needs a part behind the payload, because otherwise the payload is read again as the schema. C100_ints_differ is the witness that ints in fields are told. The type printed by the constructor of Field is that of a moved-from string, modelled as empty. Standard error is in C117."
  },
  {
   "property": "C101",
   "status": "proved",
   "theorems": [
    "Corda.Props.C101_said",
    "Corda.Props.C101_ints",
    "Corda.Props.C101_hidden"
   ],
   "note": "C101_said: all of standard output as one equation; the lines before are named by an existential that stands in front of the values, so that they cannot depend on them. C101_ints, C101_hidden: what of the value is told and what is not."
  },
  {
   "property": "C102",
   "status": "proved",
   "theorems": [
    "Corda.Props.C102_end",
    "Corda.Props.C102_transcript",
    "Corda.Props.C102_values",
    "Corda.Props.C102_hidden",
    "Corda.Props.C102_dump"
   ],
   "note": "Failing runs (pointers to characters, failed casts) are covered by C102_end only. What a class prints itself before it writes is a parameter."
  },
  {
   "property": "C103",
   "status": "proved",
   "theorems": [
    "Corda.Props.C103_end",
    "Corda.Props.C103_any",
    "Corda.Props.C103_values",
    "Corda.Props.C103_read_back",
    "Corda.Props.C103_lines"
   ],
   "note": "For every tree, class and outcome: everything printed, line for line (C103_any); the prints change neither the outcome nor the cursor (C103_end). On success every value read is printed in the clear, in order, behind pointers too (C103_values; C103_read_back for what the library wrote, unlike when it writes, C102). The number of lines, for classes that print nothing themselves (C103_lines). What a class prints itself before and after it reads is a parameter. Not modelled: what the default constructor of a vector prints between line 122 of SerializableVector.h and the undefined behaviour that follows."
  },
  {
   "property": "C104",
   "status": "partial",
   "theorems": [
    "Corda.Props.C104_shows",
    "Corda.Props.C104_output",
    "Corda.Props.C104_two_numbers_partial",
    "Corda.Props.C104_class",
    "Corda.Props.C104_otherwise",
    "Corda.Props.C104_violated",
    "Corda.Props.C104_writer01"
   ],
   "note": "Exactly which files are shown and what of them (C104_shows), all of the output (C104_output, C104_class), the other ends (C104_otherwise), with the file of writer-test-01 (C104_writer01). Violated: one number is shown as two, and compressed files are read as plain ones."
  },
  {
   "property": "C105",
   "status": "partial",
   "theorems": [
    "Corda.Props.C105_reader02",
    "Corda.Props.C105_reader03",
    "Corda.Props.C105_reader04",
    "Corda.Props.C105_reader05",
    "Corda.Props.C105_classes",
    "Corda.Props.C105_reader06_violated",
    "Corda.Props.C105_arguments"
   ],
   "note": "Proved for reader-test-02 to 05 with all values (strings up to the first NUL), with all of the output and the file. Violated by reader-test-06 for every list."
  },
  {
   "property": "C106",
   "status": "partial",
   "theorems": [
    "Corda.Props.C106_run",
    "Corda.Props.C106_success",
    "Corda.Props.C106_file_partial",
    "Corda.Props.C106_violated",
    "Corda.Props.C106_arguments",
    "Corda.Props.C106_inspected"
   ],
   "note": "The end, the output and the file for every object (C106_run, C106_success, C106_arguments), shown by the inspector where C75 applies (C106_inspected). Violated: a file that cannot be opened changes nothing."
  },
  {
   "property": "C107",
   "status": "proved",
   "theorems": [
    "Corda.Props.C107_encoded",
    "Corda.Props.C107_inspected",
    "Corda.Props.C107_reader03",
    "Corda.Props.C107_reader04",
    "Corda.Props.C107_all03",
    "Corda.Props.C107_all04",
    "Corda.Props.C107_older",
    "Corda.Props.C107_shown",
    "Corda.Props.C107_reader01"
   ],
   "note": "Props/SavedFiles.lean. C107_encoded: what Model/Encoder writes for a serialised object is an encoding in the sense of C71 and decodes to it. C107_inspected: C106_inspected with that encoder. C107_reader03, C107_reader04: the processes of Model/Processes save the checked-in files byte for byte. C107_older: so for the file beside reader-test-01 with the older object. C107_shown, C107_reader01: what the inspector and reader-test-01 make of the three files. The encoder of qpid-proton is modelled from the library, not from /repo."
  },
  {
   "property": "C108",
   "status": "partial",
   "theorems": [
    "Corda.Props.C108_schema",
    "Corda.Props.C108_classes",
    "Corda.Props.C108_success_partial",
    "Corda.Props.C108_read",
    "Corda.Props.C108_dumped",
    "Corda.Props.C108_dumped_raw",
    "Corda.Props.C108_violated",
    "Corda.Props.C108_files"
   ],
   "note": "Two objects of the same form, with values removed, get the same schema (C108_schema); more generally if the classes and the first properties of each agree (C108_classes). The schemas read back and the dumps agree too (C108_read, C108_dumped, the latter for texts within the sizes AMQP allows, C108_dumped_raw), and so does all the schema dumper does with the files, in any encoding (C108_files). Missing from the partial theorem: pointers to char; C108_violated has two objects that differ in such a character, one serialised, the other undefined."
  },
  {
   "property": "C109",
   "status": "partial",
   "theorems": [
    "Corda.Props.C109_blob_partial",
    "Corda.Props.C109_file_partial",
    "Corda.Props.C109_programs_partial",
    "Corda.Props.C109_violated"
   ],
   "note": "C109_blob_partial: objects of declared classes (a fingerprint determines name, properties and their types) with the same blob are equal. C109_file_partial: for all encodings. C109_programs_partial: for the files the programs write with the encoder of C107. Missing: classes that share a fingerprint; C109_violated has for all names and numbers two objects that make the same blob."
  },
  {
   "property": "C110",
   "status": "proved",
   "theorems": [
    "Corda.Props.C110_data_dumper",
    "Corda.Props.C110_schema_dumper",
    "Corda.Props.C110_blob_inspector",
    "Corda.Props.C110_reader01",
    "Corda.Props.C110_assertion",
    "Corda.Props.C110_damaged",
    "Corda.Props.C110_saved"
   ],
   "note": "C110_data_dumper, C110_schema_dumper, C110_blob_inspector, C110_reader01: all pairs of files. C110_assertion: how the tools end. C110_damaged: every cut and every addition behind the preamble is of that kind. C110_saved: for objects the library saved. The decoder is that of Model/Wire.lean; a failed assertion is undefined behaviour in the model."
  },
  {
   "property": "C111",
   "status": "partial",
   "theorems": [
    "Corda.Props.C111_arrays_partial",
    "Corda.Props.C111_all_arrays_partial",
    "Corda.Props.C111_ends",
    "Corda.Props.C111_kept",
    "Corda.Props.C111_write",
    "Corda.Props.C111_make",
    "Corda.Props.C111_serialised",
    "Corda.Props.C111_grows",
    "Corda.Props.C111_read",
    "Corda.Props.C111_violated"
   ],
   "note": "C111_arrays_partial, C111_all_arrays_partial: the arrays, in any program, after any exceptions. C111_ends: destroying what is left is always defined. C111_kept, C111_write, C111_make, C111_serialised, C111_grows, C111_read: what is not given back, exactly. Missing: the trees, of which the claim is false: C111_violated. What the standard library takes is not modelled."
  },
  {
   "property": "C112",
   "status": "partial",
   "theorems": [
    "Corda.Props.C112_same",
    "Corda.Props.C112_read",
    "Corda.Props.C112_lost",
    "Corda.Props.C112_place",
    "Corda.Props.C112_exactly",
    "Corda.Props.C112_by_value_partial",
    "Corda.Props.C112_null",
    "Corda.Props.C112_violated"
   ],
   "note": "C112_same: the reader with the calls of new in it reads what the reader of the other claims reads. C112_read: nothing is lost if nothing is thrown. C112_lost: what is lost, by the place where reading throws (FailsAt). C112_place: there is only one such place. C112_exactly: what is lost at a given place. C112_null: a null for a pointer to a number loses the new number. C112_by_value_partial: classes without pointers. Missing: classes with pointers, of which the claim is false: C112_violated. That the constructors of the user's classes and their destructors do not throw or lose anything is taken for granted."
  },
  {
   "property": "C113",
   "status": "partial",
   "theorems": [
    "Corda.Props.C113_trees",
    "Corda.Props.C113_bytes",
    "Corda.Props.C113_before_partial",
    "Corda.Props.C113_afterwards",
    "Corda.Props.C113_attempted",
    "Corda.Props.C113_shown",
    "Corda.Props.C113_violated"
   ],
   "note": "Violated (C113_violated: read from a blob, then from it and a copy). C113_trees: no use changes the trees. C113_bytes: the bytes are always those of the tree. C113_before_partial: until an object is read, everything is as with a new blob. C113_afterwards: after a successful read, what further uses of the blob and its copies give, for all programs. C113_attempted: the same after an exception, for blobs the library wrote. C113_shown: which undefined behaviour follows."
  },
  {
   "property": "C114",
   "status": "proved",
   "theorems": [
    "Corda.Props.C114_size",
    "Corda.Props.C114_same",
    "Corda.Props.C114_more",
    "Corda.Props.C114_bound",
    "Corda.Props.C114_linear"
   ],
   "note": "C114_size: the exact size of the file a sample program writes, for all objects (with the model of the encoder that C107 compares with real files). C114_same, C114_more: how it changes with the object. C114_linear, C114_bound: bounds."
  },
  {
   "property": "C115",
   "status": "partial",
   "theorems": [
    "Corda.Props.C115_shown",
    "Corda.Props.C115_exact",
    "Corda.Props.C115_not_shown",
    "Corda.Props.C115_plain_not_shown",
    "Corda.Props.C115_self_contained_partial",
    "Corda.Props.C115_violated",
    "Corda.Props.C115_characters"
   ],
   "note": "C115_exact: the schema is complete exactly if the classes missing somewhere are described. C115_self_contained_partial: objects in which none is missing. C115_violated: every object with nothing but a null pointer to an object of another class, which the inspector does not show. C115_shown: what is shown of any blob names known types only; C115_not_shown, C115_plain_not_shown and C115_characters: what is not shown therefore. Missing from the partial theorem: null pointers, empty containers and derived classes."
  },
  {
   "property": "C116",
   "status": "partial",
   "theorems": [
    "Corda.Props.C116_no_entries_partial",
    "Corda.Props.C116_no_maps_partial",
    "Corda.Props.C116_violated",
    "Corda.Props.C116_tool_partial",
    "Corda.Props.C116_written_partial",
    "Corda.Props.C116_exchanged"
   ],
   "note": "Violated by C116_violated, a map with one entry. Partial: what a file without map entries or without map types shows does not depend on the order, for any tree (C116_no_entries_partial, C116_no_maps_partial), so the inspector ends in the same way (C116_tool_partial), in particular for objects in which all maps are empty (C116_written_partial); C116_exchanged says what is shown of maps from right to left, for values of the types of the schema. Not said: what is shown from right to left of maps whose entries, exchanged, are not of the types of the map, other than through C92."
  },
  {
   "property": "C117",
   "status": "partial",
   "theorems": [
    "Corda.Props.C117_same_ends",
    "Corda.Props.C117_data_dumper_partial",
    "Corda.Props.C117_schema_dumper_partial",
    "Corda.Props.C117_dumpers_silent",
    "Corda.Props.C117_blob_inspector_partial",
    "Corda.Props.C117_header_shown",
    "Corda.Props.C117_violated"
   ],
   "note": "What each tool says is proved for every way it can return: nothing on success, and on failure the usage, the encoding or the exception, tied to the arguments and the bytes of the file that cause it; the dumpers are silent on failure exactly if there is no such file. The blob inspector is described for all ends, also when it is aborted. False of a missing file (all tools) and of missing arguments (blob inspector), and the usage lines of seven sample programs give a wrong name (C117_violated). The text of an exception is not modelled beyond a label, what the runtime prints when it aborts not at all, and of files with fewer than eight bytes nothing is said where the program reads an uninitialised byte."
  },
  {
   "property": "C118",
   "status": "partial",
   "theorems": [
    "Corda.Props.C118_seen_partial",
    "Corda.Props.C118_ordinary",
    "Corda.Props.C118_shrunk",
    "Corda.Props.C118_unreadable_violated",
    "Corda.Props.C118_pipe_violated",
    "Corda.Props.C118_memory_violated",
    "Corda.Props.C118_shrunk_violated"
   ],
   "note": "C118_seen_partial: the tools on any machine are the tools of the other claims on the files that are seen, if the preamble can be read and there is memory. C118_ordinary, C118_shrunk: what is seen of files that stay as they are, grow or shrink. Violated: C118_pipe_violated (no size), C118_memory_violated, C118_unreadable_violated (undefined behaviour of the inspector; the dumpers refuse), C118_shrunk_violated (zeros are shown). Missing from the partial theorem: these names. What stat in main and stat in the constructor say is taken to be the same."
  },
  {
   "property": "C119",
   "status": "partial",
   "theorems": [
    "Corda.Props.C119_run",
    "Corda.Props.C119_unchanged",
    "Corda.Props.C119_told",
    "Corda.Props.C119_round_trip",
    "Corda.Props.C119_whole_partial",
    "Corda.Props.C119_shown",
    "Corda.Props.C119_cut",
    "Corda.Props.C119_assertion",
    "Corda.Props.C119_violated",
    "Corda.Props.C119_stale_violated",
    "Corda.Props.C119_lost_violated"
   ],
   "note": "C119_run: the program reports success whatever the disk, and what is left is what fits. C119_whole_partial: when the file is whole, and that other files are unchanged; C119_unchanged: failing programs leave everything. C119_told, C119_round_trip: what is printed does not depend on the disk. C119_cut, C119_assertion: nothing shows a cut file. Violated: C119_violated, C119_stale_violated (the earlier object is shown), C119_lost_violated (the earlier object is lost)."
  },
  {
   "property": "C120",
   "status": "partial",
   "theorems": [
    "Corda.Props.C120_thrown",
    "Corda.Props.C120_complete_partial",
    "Corda.Props.C120_type_partial",
    "Corda.Props.C120_nothing_violated",
    "Corda.Props.C120_symbol_violated",
    "Corda.Props.C120_err"
   ],
   "note": "C120_complete_partial: the exact text for ten checks. C120_type_partial: for these, is_ulong and readAndNext<string> the message tells the type. C120_thrown: when there is a message. Violated: C120_symbol_violated, C120_nothing_violated."
  },
  {
   "property": "C121",
   "status": "partial",
   "theorems": [
    "Corda.Props.C121_set",
    "Corda.Props.C121_set_many",
    "Corda.Props.C121_unset_partial",
    "Corda.Props.C121_unchanged_partial",
    "Corda.Props.C121_given_violated",
    "Corda.Props.C121_leftover_violated"
   ],
   "note": "C121_set, C121_set_many: with fingerprints the compiler does not matter. C121_unset_partial: the exception. C121_unchanged_partial: nothing is left in the blob if the object itself has no fingerprint. Violated: C121_leftover_violated, C121_given_violated."
  },
  {
   "property": "C122",
   "status": "partial",
   "theorems": [
    "Corda.Props.C122_own_partial",
    "Corda.Props.C122_unmentioned_partial",
    "Corda.Props.C122_last_partial",
    "Corda.Props.C122_stuck_violated",
    "Corda.Props.C122_later_violated",
    "Corda.Props.C122_later_list_violated"
   ],
   "note": "C122_own_partial: exactly what is shown. C122_unmentioned_partial (for serialisers of any behaviour), C122_last_partial: consequences. The serialiser of the repository is shown to be of the kind assumed (publicKey_behaves). Violated: C122_stuck_violated, C122_later_violated, C122_later_list_violated."
  },
  {
   "property": "C123",
   "status": "partial",
   "theorems": [
    "Corda.Props.C123_blob_inspector",
    "Corda.Props.C123_data_dumper",
    "Corda.Props.C123_schema_dumper",
    "Corda.Props.C123_last_line_partial",
    "Corda.Props.C123_data_last_line_partial",
    "Corda.Props.C123_last_line_violated",
    "Corda.Props.C123_data_last_line_violated"
   ],
   "note": "All three tools: every piece printed ends in a line end and a dump is at the end, for all inputs. The last line is proved for the blob inspector and the data dumper if no text or symbol of the blob has a line end; without that it is false, and the witnesses show a last line that is the dump of another blob. Missing: the last line of the schema dumper (its dump has many lines by design)."
  }
 ]
}