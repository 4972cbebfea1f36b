# Formal model of corda-cpp-amqp

Subject: `/repo` (C++). Everything below is about the source text at the pinned commit; nothing is built or run.

## Trusted base

* Lean 4 kernel (4.33.0).  No added axioms, no `sorry`, `native_decide` or `bv_decide`.  Every property theorem is
  followed by `#print axioms`; at most `propext`, `Classical.choice`, `Quot.sound` appear.
* The hand translation of the C++ into Lean definitions.  Each definition cites file and lines.
* The model of the external library qpid-proton (`pn_data_t`): a forest of nodes plus a cursor, see
  `Verif/Model/Proton.lean`.  Except where `Wire.decode` is named (see Simplifications), byte encoding/decoding
  (`pn_data_encode`/`pn_data_decode`) is outside the model: the model starts from the decoded tree and ends at the tree handed to
  the encoder.  Proton's 65535-node limit and allocation
  failure are outside the model.
* Standard library behaviour of `std::string`, `std::list`, `std::map`, `std::vector`, `std::regex_replace` as used.

## Conventions

* `Str = List Char`; a `Char` stands for one C++ `char` code unit.
* `Res α` = `ok a | throw msg | ub why`.  Undefined behaviour is a distinct outcome.  What counts as `ub`: reading
  outside an object, dereferencing null, using an object through the wrong type, reading an uninitialised variable,
  converting a number to an enumeration that has no such value;
  an enabled `assert` failing is modelled as `ub "assert"` too (the CMake files set no `NDEBUG`, the process aborts).
  Merely *forming* an out-of-range iterator that is never read (e.g. `s.rbegin()+2` on a one-character string in
  `Array::isArrayType`) is not counted.
* Debug output of the library (`DBG`, `std::cout`) is dropped, except where evaluating its operands can itself fail.  It is there: see the
  finding on C68.
* Exception messages are kept where the source has a fixed literal; file/line suffixes are dropped.

## Plan per property

| id | model | proof |
|----|-------|-------|
| C01-C04 | `CordaBytes`: constructor and `toFile` as functions on byte lists, `size_t` wrap, uninitialised `encoding` and conversion of a byte above 3 to the enumeration as `ub` | case analysis on list prefix; C01 and C03 are false of the code: witness + `_partial` |
| C05-C07 | `SchemaUtils`: `listType`, `mapType`, `nestedGenericTypes` on strings | separate type-tree AST with a renderer; induction over the tree with a bracket-depth lemma |
| C08-C10 | `isArray`, `unbox`, `makePropertyReader` | case analysis; C08, C10 false as stated: witness + `_partial` |
| C11-C13 | `OTN`: list of levels, `insert` for an arbitrary score function, well-founded on number of elements | permutation and invariant by induction; C13 false: witness + `_partial` |
| C14-C15 | `SchemaTypes`: composite/list/map/array/enum, `dependsOn` | exhaustive kind analysis; C14/C15 false in some pairings: witnesses + `_partial` |
| C16-C18 | `Schema`, `Field.make`, `Restricted.make` | decision-logic theorems |
| C19-C24 | `Descriptors`: `build` and `makeProton` as cursor programs | symbolic execution of the cursor program, induction on lists; C23 false: witness + `_partial` |
| C25-C26 | cursor programs, whole dumps in `Props/Untouched` | predicate closed under the program combinators |
| C27-C28 | `Wrapper` | full case analysis; C27 false for strings: witness + `_partial` |
| C29-C32 | `Writer`: object values, blob writer state | mutual induction on values |
| C33-C37 | `RoundTrip` | mutual induction on values against a class-shape universe; C34, C35, C36, C37 false: witness + `_partial` |
| C38-C42 | `Readers`: dumps as cursor programs | refinement to tree-level rendering; C38, C40, C42 false: witness + `_partial` |
| C43-C46 | `Factory`: maps from names to readers | induction over the schema; C44, C45 false: witness + `_partial` |
| C47-C49 | `Render`, `RawDump` | induction on trees; C49 false: witness + `_partial` |
| C50, C51 | `SchemaUtils` (`javaName`) | induction on the string, on the type |
| C52-C55 | `RoundTrip` | universal counterexamples; C55 also what does hold |
| C56 | `Writer` with `Descriptors` | C30-C32 composed with C22 |
| C57 | all of the inspector | C22, C13, C43 and the reading lemma composed |
| C58 | `RawDump` | stays in its level; induction on the bound of the nesting |
| C59-C62 | `SchemaDump` | stays in its level; evaluation on the tree of a schema; the text as a list of indented lines, which can be read back |
| C63-C64 | `Avro` | evaluation on the tree of a schema, by induction on nested type names; a JSON grammar, and an automaton that accepts every JSON text but not what goes wrong |
| C65-C66 | `Boxed` | a match of a pattern lies inside one leaf of a type name; induction over nested names |
| C67 | `SchemaDumpSafe` | absence of undefined behaviour by stepping lemmas; induction over the trees the dumps can show |
| C68-C70 | `Tools` | `load_eq` for the file, then case analysis; "throws only runtime errors" as a program logic (`Lemmas/Quiet`) |
| C71-C72 | `Wire` (AMQP encodings as an inductive relation), `Tools` | induction on the relation; what the writer makes is encodable; C33, C38, C70 composed |
| C73 | all of the inspector | the files of bin/test-files, evaluated in the kernel; C71 for other encodings of them |
| C74 | `CordaBytes`, `Tools` | `load_eq` |
| C75 | `Programs`, `Writer`, `Readers`, `Wire` | C38 for schemas (`Presentable`) rather than objects: `conforms_describes`; the programs are instances |
| C76 | `Programs`, `RoundTrip`, `Wire` | instances of C33, C54, C72 |
| C77 | `Readers`, `Factory` | `Spec/Meaning` says what the text of a tree is; each reader object agrees with it at every position (`Lemmas/Meaning`, relation `Is`), by induction on the depth |
| C78, C79 | `Model/Listing`: the `operator <<` of the schema classes | cut into lines by a small reader (`Spec/Listing`) that gives back the parts; C13 for three types by naming the types and deciding all relations |
| C80 | `Model/Reads`: `read`, `readString`, `write` of the serialisers | unfolding; compared with the inspector's text at every cursor |
| C81 | `Model/Render`: `std::to_string` of integers, doubles and floats, against IEEE 754 values in `Rat` | `nearest_quotient` (rounding half to even), `scaled`, `shifted` (powers of two), reading digits back |
| C82 | `Model/Descriptors`: the envelope reader on any tree, against the decoder of `Spec/Accepted` | `Gives` (exact outcome of a program), `Ends`, `element_ok` and one equivalence per element |
| C83 | `Model/Wrapper`: type names and `is_primitive`, against `Spec/Words` | case analysis |
| C84 | the text of values (`shown`), against `Alike` (`Spec/Alike`) | `shown_apart`: a text read from the front, whatever follows; `items_apart` |
| C85 | `Model/RawDump`: `dumpData` on any tree, against `dataText` (`Spec/AnyData`) | the calculus of `Lemmas/Meaning` |
| C86 | `Model/UnitTests`: the classes and bodies of the unit tests | C33 for the round trips, C87 for the random fingerprints, evaluation |
| C87 | `Model/Ordering`, `dependsOn`, against `essence` (`Spec/Essence`) | `insertAllR_map`: insertion commutes with relabelling |
| C88 | `Model/RoundTrip`: `deserialise` on any tree, against `objectFrom` (`Spec/AnyObject`) | induction on the class; the position after each property |
| C89 | `Model/Descriptors`: `readEnvelope`, `dispatch` on any tree, against `envelopeFrom`, `elementIn` (`Spec/AnySchema`) | the calculus of `Lemmas/Meaning`; induction on the nesting |
| C90 | `Model/SchemaDump`: `dumpSchema .raw`, `rawBase` on any tree, against `rawDump`, `linesIn` (`Spec/AnySchemaDump`) | the same calculus, on lines instead of texts; induction on the nesting |
| C91 | `Model/SchemaDump`: `dumpSchema .avro`, `avroBase`, `inferType` on any tree and any name, against `avroDump`, `avroIn`, `typeShown` (`Spec/AnyAvro`) | names by strong induction on the length, `listType`/`mapType` against what is behind the first bracket or comma; trees by the same calculus; agreement of two recursions on a class of nodes closed under parts |
| C92 | `Model/Readers`: `inspect`, `dumpContents`, `dumpPayload`, `dump`; `Model/Factory`: `process` on any types; `blobInspector`, against `inspectionOf`, `learnAll`, `textIn` (`Spec/AnyInspect`) | a relation between a factory and a table of known types, kept by every step; an object whose place in the map is taken is lost (its weak pointer is empty); readers by the same calculus as C77, bound on the depth irrelevant |
| C93 | `Model/Factory`, `Model/Readers`: one factory used for several blobs (`inspectMany`), against `inspectionsIn`, `study`, `Memory` (`Spec/Session`) | the relation of C92 extended by names asked for in vain and by descriptors, kept also when an exception is thrown; requests (`Ask`) and a simulation between memories |
| C94 | `Model/Writer`: `serialise`, one blob used for any objects and blobs in between (`useBlob`), against `writtenOf`, `blobUses`, `Ledger` (`Spec/AnyWrite`) | relation between the two ordered maps and the list of what was written; induction over objects, failing or not; sorted maps are equal if their lookups are |
| C95 | `Model/Writer`, `Model/Ordering`, `Model/Factory`, `Model/Readers`: `serialise` and `inspect` together, against a relation `uses` between classes (`Spec/Naming`) | answers of a type about itself do not matter (`Lemmas/OffDiagonal`), so C13 extends to recursive classes; levels give an order in which readers are found; from such an order, infinite descent excludes cycles; for lists (`Props/ListNaming`), C13 is restated for answers that miss some needs; where there is no cycle, names made of the number of classes needed are good ones (`Props/GoodNames`) |
| C96 | `Model/Questions`: `OrderedTypeNotations::insert` with an account of the calls of `dependsOn`; `C96_same` ties it to `Model/Ordering` | the sum of the levels in front of all elements grows by one with each recursive call and is at most n(n-1)/2; one call asks at most 2(n-1) questions; failing answers are replaced by 0, which only adds questions |
| C97 | `Model/Trace`: the functions behind `dumpData` once more in a monad that also collects what is printed, `dataDumperOutput`; `Spec/Trace`: `told`, `dataTold`, `script`, `outline` | taking the prints away gives the functions of `Model/RawDump` (`Lemmas/Trace`), so C85 and C68 carry over; the calculus of positions of C85 with prints; for payloads without entries in maps an induction over the payload |
| C98 | the functions of C68, C85, C90, C91, C92 on what the decoder of C71 makes of a file; `Spec/Bulk`: `mass` of a tree, conditions under which no part is shown twice | `mass` is at most 37 times the length of the encoding (a byte of an array of booleans can become a node); each dump is bounded by the mass by induction over the depth; witnesses: three families of trees with their exact encoded lengths and lower bounds of their dumps |
| C99 | `Model/SchemaTrace`: the functions behind `dumpSchema` once more in the monad of C97, `schemaDumperOutput`; `Spec/SchemaTrace`: `rawSaid`, `avroSaid` on trees, `rawScript`, `avroScript` for schemas as Corda writes them | taking the prints away gives the functions of C90 and C91 (`Lemmas/SchemaTrace`); the calculus of positions with prints; that standard output is not JSON by the automaton of C64: it gives up in the first line |
| C100 | `Model/InspectTrace`: the functions behind `dumpContents` once more with their prints (reading the schema, making fields and types, asking for dependencies, ordering, making readers, reading the payload), `blobInspectorOutput`; `Spec/InspectTrace`: `hide`, what of a payload may be told, `Grows`, the lines | taking the prints away gives the functions of `Model/Readers` (`Lemmas/InspectTrace`); what is printed below a node depends on the node only (`Lemmas/InspectLocal`); a relational calculus (`Blind`): from positions that look the same two runs print the same and end alike (`Lemmas/InspectBlind`, `Lemmas/InspectEnvelope`); listings by a potential that each type adds to (`Lemmas/InspectListing`) |
| C101 | `Spec/InspectSaid`: the remarks about a value, line by line, by recursion on the value alone; the ints in fields; `veil`, a value without what is kept back | the traced readers say exactly the remarks (`Lemmas/InspectSaid`, by induction on the value); what is said about the schema does not depend on the fuel, which the depth of the value determines (`Lemmas/InspectFuel`) |
| C102 | `Model/WriteTrace`: the functions behind `serialise` once more with their prints, `serialiseTold`, `dump`; `Compiled`, what the compiler decides; `Spec/WriteTrace`: the script of an object by recursion on the object alone, with lines that are said the first time only | without its prints each function is that of `Model/Writer`; each prints its script, by induction on the object, where the lines already said are the properties recorded (`Lemmas/WriteTrace`) |
| C103 | `Model/ReadTrace`: the functions behind `deserialise` once more with their prints; `NProp`, a class with the names of its types; `ReadCompiled`, what the compiler decides; `Spec/ReadTrace`: what is printed and returned, by recursion on the class and the tree, without cursors | without its prints each function is that of `Model/RoundTrip`; each prints what the specification says from any cursor on that node, and leaves it one further (`Lemmas/ReadTrace`); values and line counts by induction on the class |
| C104-C106 | `Model/Processes`: the `main` functions of bin/reader-tests and bin/writer-tests: how they end, all of their standard output, the files they write; `World`, the files, the decoder and encoder of proton and which files can be opened; `Spec/Processes`: which files hold two numbers, the lines the programs add | from C102 and C103 for the output, C76 and C88 for the values, C01/C02 for loading, C75 for the inspector |
| C107 | `Model/Encoder`: `pn_data_encode` of qpid-proton, which form of a value it chooses (not in /repo; from its encoder.c) | induction on the tree: what is chosen is one of the encodings of C71; the checked-in files compared with the processes of C105 in the kernel |
| C108 | `Spec/Form`: an object without its values (`form`) | induction on the object: the schema written so far and the outcome are functions of the form; C107_all03/04 use it to give the bytes of the saved files for all numbers |
| C109 | `Spec/Declared`: the classes of a program by fingerprint, and the objects of them | induction on the object: the payload determines it; with C71 for files |
| C110 | decoder of C71, processes of C68 and C104 | decoding goes the same way with more bytes behind, so complete values are not beginnings of each other |
| C111 | `Model/Memory`: the writer with its calls of `pn_data`, programs as lists of steps over the objects of the library | `Step`s keep an invariant (arrays taken = arrays owned); the trees counted by induction on the object |
| C112 | `Model/NewObjects`: the reader with its calls of `new` | induction on the class: what is left by how a step ends; `Spec/NewObjects` says what is lost by place |
| C113 | `Model/BlobUse`: the trees, the blobs that point to them, and what is done with them | the cursor is at the root until an object is read and then on the schema or off the path; kept by every use |
| C114 | `Model/Encoder`, `Model/Writer` | `Spec/Size` adds up the bytes; induction on the object, and each description is of a class or property that was used |
| C115 | `Model/Writer`, `Model/Factory`, `Model/Readers` | `Spec/SelfContained` lists what is named without being there; induction on the object, and on the types the inspector learns (C92) |
| C116 | `Model/Factory`, `Model/Readers` | C92 for any tree: keys and values can be learnt in either order; induction on the depth of the payload.  For the exchange, induction on the value as in C57 |
| C117 | `Model/StdErr` (the tools again, each with what it writes to standard error) | that they are the tools of C68; cases of the file (C01) and the arguments |
| C118 | `Model/Sources`: size from `stat`, bytes from reading, memory | the constructor of `CordaBytes` and the tools once more; reduced to `Model/Tools` on the file that is seen |
| C119 | `Model/Saving`: `std::ofstream` with limited room, files that are there before | the three writes are a prefix of the whole file; cut files by C110 |
| C120 | `Model/Messages`: the whole text of each exception of the wrapper | table of the types by `decide`; cases |
| C121 | `Model/Fingerprint`: writing with classes whose fingerprint may be missing, for both kinds of builds | induction over objects, both builds side by side |
| C122 | `Model/OwnSerialisers`: any list of serialisers installed by a program | invariant of the factory; induction over the depth, as for C77 |
| C123 | the traces of C97, C99 and C100 (`Model/Trace`, `SchemaTrace`, `InspectTrace`) | every piece is whole lines, by a tactic over all traced functions; line ends in dumps by induction over the tree |


## Findings: properties that are false of the code

Each has a `_violated` theorem with a concrete witness and a `_partial` theorem for what is true.

* **C01** The eighth byte of a file is converted to an enumeration whose values are 0..3: any other byte is undefined behaviour
  (in practice the value is kept and the file refused).  So also C69.
* **C03** A file shorter than 8 bytes can pass the header comparison against the zero-filled buffer and then reads the
  uninitialised encoding byte.
* **C08** `Array::isArrayType` reads outside the string exactly for `""`, `"]"` and `"p]"`.
* **C10** `Boolean`, `Byte`, `Character`, `Short` unbox to names `makePropertyReader` does not know. `Float` has a reader, but it throws whatever it is
  given (`C10_float_violated`).
* **C13** The insertion into the ordered type list only looks at direct answers; with 2→3→1→0 inserted as 0,1,2,3
  the order is wrong (with three types it never is).  For real types: a map over an enum inserted before the enum stays before it.
* **C14, C15** `Enum::dependsOnMap` answers 1 where 2 is meant; every `dependsOnArray` answers 0; composites look
  into nested generics in one direction only; a `*` field without requirements makes `resolvedType` undefined.
* **C17** `Field::make` inherits C08; a map requirement without comma throws.
* **C18** `int[][]` is taken for an array of `int`; `java.util.List` (raw) gets element type `java.util.Lis`.
* **C23** The registry lookup inserts a null for an unknown identifier and dereferences it; elements of kinds 8-11 are
  null; `dispatchDescribed<T>` casts without checking.  `Spec/Malformed.lean` states what the readers rely on.
* **C27** `attest_is_string` without `allowNull` accepts every value.
* **C34** A null pointer is written as an AMQP null, but the readers do not accept one: reading throws, and for
  `std::string *` constructs a string from a null `char *`.
* **C29** `writePrimitive` and `writePrimitiveSingle` print the value with `DBG`, which is switched on (debug.h:5). A `char *` is then
  taken for a C string: null, or a single character other than NUL, is undefined behaviour. The unit test `RTT` with
  `SingleTest<char *>` (RoundTripTests.cxx:211) does that. Everything about serialising assumes `NoCharPointers` where it claims success.
* **C33, C35** `PrimToSerialiser<std::string>::get` uses only the `start` of the bytes, so strings are cut at a NUL.
* **C36, C55** `attest_is_string` accepts everything (C27), so reading a string where there is none is undefined.
* **C37** `readyPayload` works from where the cursor is; after the first read that is the schema.
* **C52** `startComposite` steps over the fingerprint without looking at it.
* **C53** `pn_data_next` stays on the last element at the end of a list and nobody checks its result.
* **C54** The vector reader looks for a list where the first element is.
* **C38** Properties are written in the order of the `write` calls but described in alphabetical order (`std::map`), and
  read by position: `b = 1, a = 2` is shown as `a : 1, b : 2`. An object of integers is shown correctly exactly if its values come
  in the same order either way (`C38_ints_exact`); with other primitive types a value may be shown as zero or inspecting throws (`C38_flat`).
  Graphs of objects whose types fit place by place are shown under exchanged names at every depth (`C38_any_order`).
* **C40** `MapReader::dump_` passes the dumps of key and value as two arguments of one call.  C++ leaves the order of
  evaluation open; the model takes it as a parameter (`leftFirst`).
* **C42** A null among primitives is read as 0, or throws: lists of numbers, truth values or bytes with nulls are shown exactly as lists with zeros, and of
  a list of texts, lists, maps or enumeration constants with a null nothing is shown.
* **C44** A failed lookup in `fetchReaderForRestricted` and friends inserts a null entry (`operator[]`), which a later
  schema meets.
* **C45** `computeIfAbsent` keeps the reader of an earlier type of the same name.
* **C46** A custom serialiser installed late does not replace the readers already wired; installed over a primitive
  reader it destroys it.
* **C49** `dumpMap` takes the type of one element and dumps the next, twice per iteration, and then steps again: `{1 : 2, 3 : 4,
  5 : 6}` is shown as `2 : 3, 5 : 6, 6 : 6`; if keys and values are of different kinds it throws or shows type names.
* **C58** `dumpData` on data that is not described dereferences a null pointer; with another key an assertion fails.
* **C62** `RestrictedDescriptor::readRaw` stops before the choices: enumerations with different constants look the same.
* **C64** `inferType` does not quote item types, leaves out a quote for maps, and `SchemaDescriptor::readAvro` writes a comma
  after a class if any type follows, also one that is not written.  The README says as much about commas.
* **C65** The patterns of `makePrim` are regular expressions: `.` matches anything, and they match inside longer names.
* **C66** A class with a field of type `java.util.List<java.lang.Integer>` refers to a reader that is filed under
  `java.util.List<int>`.
* **C67** The schema dumps look up `AMQPDescriptorRegistory[pn_data_type (data_)]`, which has an entry for described values
  only, and use the pointer unchecked: with a payload that is a bare value (a string, say, which Corda does write) the raw
  dump uses a null pointer.  So do unknown identifiers, an empty envelope and a schema entry that is not described.  The
  Avro dump reads outside a string for a field of type `*` without requirements or an empty type name, and fails an
  `assert` when the schema does not have exactly one list.

* **C68** `AMQP_DEBUG` is hard-wired to 1 (corda-utils/include/debug.h:5) and `readAndNext<std::string>` prints `STRING`, all to standard output:
  what the tools print is preceded by the trace of the library, and the output of `schema-dumper ... avro` as a whole is never JSON.  The
  theorems of C68 are about what `main` writes, the last thing on that stream; the trace of the data dumper is modelled for C97, that of the
  schema dumper for C99, that of the blob inspector is not.
* **C69** The constructor of `AMQPBlob` asserts that decoding used all bytes, so a file whose payload is cut off or has a byte too
  many stops every tool by a failed assertion. `blob-inspector` has no `catch`: each exception (unknown type, bad header, ...) ends it by
  `std::terminate`. `schema-dumper ... avro` on a field of type `java.util.Map<int>` throws `std::out_of_range`, which is no
  `std::runtime_error`, past its `catch`. The files each tool copes with are characterised exactly.
* **C73** `_iii_` is shown with `b` and `c` swapped (its test is switched off with a comment saying why).  `data-dumper` fails on the samples
  `_Le_2`, `_MiLs_`, `_Mi_is__` and garbles the map of `_Mis_` (C49).
* **C74** `AMQP_HEADER_DP` has the bytes of `AMQP_HEADER_V1` (`corda` 1 0); the preview sample `_i_.dp` starts with `corda` 2 0 and is refused
  unless headers are ignored.
* **C75** writer-test-04 writes a `float`, for which the inspector has no text ("This is very bad").  A class that only occurs as the element
  type of containers that are all empty is missing from the schema, and the blob cannot be inspected (writer-test-08, 09, 11 and 12 with empty
  containers).  Maps are shown with keys and values exchanged if the compiler evaluates arguments from right to left.
* **C76** reader-test-06 throws "Expected a List" for every list (as C54).
* **C77** A payload that contradicts its schema is not refused: a value of the wrong primitive type is shown as 0, false or no bytes; an
  object of another class with as many properties is shown with the names of that class and the types of the promised one; with another
  number of properties an assertion fails.  Missing values of an object are replaced by the last one, surplus values ignored.
* **C78, C79** Names are printed unescaped, so a type whose name contains a line feed is listed like two types. Printing an
  enumeration does not show its constants, and printing a field joins its requirements without a separator and shows neither
  default, label nor whether it is mandatory: types that differ print alike.
* **C80** `BinaryPropertyReader::read` reads a `bool` (always false on binary) and its `readString` a `char` (throws); a float
  cannot be read at all; `read` and `readString` of composites, lists, arrays, maps, enumerations and public keys return fixed
  values; `write` of every serialiser does nothing, that of the public key throws.
* **C81** Six decimals do not tell all doubles (or floats) apart: 0 and the smallest double are both shown as `0.000000`, the
  floats 0.1 and its successor as `0.100000` (`C81_distinct_violated`).
* **C82** The schema reader does not count parts: asked for the next part at the end of a list, proton stays on the last one, so that a
  field description without its last part (`multiple`) is read as if `mandatory` stood there too; surplus parts are ignored; anything whatever
  in place of a list of strings counts as an empty list if it has no children (`C82_only_proper_violated`). An accepted tree still never
  gives more than what the proper encoding of the same types gives.
* **C83** `is_primitive` is false of null and timestamps, which AMQP 1.0 counts among the primitive types.
* **C84** Quotation marks in strings are not escaped: a list with the one string `a", "b` is shown like the list of `a` and `b`.
* **C86** Of the library's own tests RTT.int_list and RTT.SingleLists throw, RTT.singlePointers passes a pointer to a single character to
  an output operator that expects a text, and the tests of the vector class expect the fingerprint `things123` where the file itself
  declares `IntVector`, and `String` where the code says `string`.
* **C92** A class named like a primitive type (for example `int`) loses the reader of that type when it is registered; inspecting an
  object of it throws "null field reader". Of two types with one descriptor the last one's reader is used with the first one's field
  names, so a text can be shown as `0`. Of two types with one name only the first in level order can be read.
* **C93** A factory that is used for several blobs keeps what a failed blob left behind: the map of readers has a null entry for every
  class that was missing, and a later blob that does define it fails an assertion. A class is read as the first blob with that name
  said, so another version of it is shown wrongly (a string as `0`) or throws. A payload whose descriptor only an earlier blob had
  throws instead of failing an assertion. `BlobInspector::dump` uses a new factory every time.
* **C94** A blob takes one object: one made of none, or of two, cannot be opened. An object that fails leaves its part and its class in the
  blob, and an object that can be written alone can fail after it.
* **C95** The schema is written in alphabetical order and the ordering of types depends on the order of arrival (C13). So an order
  (`net.Order`) with a `net.Person` with a `net.Address` in a `net.City` is written but cannot be inspected ("Can't find"); with
  `net.Client` for `net.Person` it can. Of the 24 ways to name four classes that contain each other in a chain six fail: those in which the
  second has the last name. Classes that use each other can never be inspected,
  neither can a class with a list of its own kind. With lists the package matters too: `com` sorts before `java.util.List`, `net` after it.
  A `net.Order` with a list of `net.Line` with a list of `net.Item` cannot be inspected; the same classes in the package `com` can.
* **C97** The data dumper never prints the dump alone: at least four lines of trace come before it, also when the dump then fails.  Because
  `dumpMap` takes each value for what its key is, the trace can show data where it means to show a descriptor (`FINGERPRINT: secret` for a
  map from a described key to a list that starts with a string).
* **C98** Going on from the last part of a list stays at the last part (`pn_data_next` returns false and nobody looks), so a part that is
  missing is replaced by the one in front of it, with all that is in it. Objects in objects, each with the second of two properties
  missing, double the output of the blob inspector with each level; maps with one entry do so for the data dumper (the value is shown in
  place of the key too), envelopes with one part for the raw schema. A file of some 1300 bytes never ends.
  The library itself saves such files (`C98_inspector_written_violated`, `C98_data_written_violated`): objects of one class of which only
  the outermost writes both properties, and maps in maps. For the raw schema it does not (`C98_raw_written`).
* **C99** All of the standard output of `schema-dumper file avro` is never JSON, whatever the blob: the first line is
  `[...AMQPDescriptor.cxx::136] readAvro::Descriptor`. Seven different lines of trace come up in the Avro form, two in the raw form.
* **C100** Standard output of the blob inspector is never the dump alone: whenever there is a dump, a line for the custom serialiser and one for the envelope come first. The
  trace gives away every int that is read into a field (IntPropertyReader.cxx:43) and of the rest of the payload at most shape, types and descriptors. After each type of the schema
  all types so far are listed, so the trace is quadratic in the number of types. The constructor of `Field` prints a string it has moved from; the factory
  prints of a resolved type only the first character (CompositeFactoryInternal.cxx:147).
* **C101** The ints the trace gives away are those in fields, at any depth, once each and in the order of the fields; ints in lists and maps are read without a name
  and are not printed (IntPropertyReader.cxx:43 against :63). Each object is announced by `Read Composite: ` without its name: the name is not part of the line.
* **C102** Serialising prints every primitive value that is not behind a pointer in the clear, with the name of the property (`writePrimitive::name::value`), before it is
  written: a program that serialises a password has printed it. Of pointers the address is printed. `name missing :(` (ModifiableAMQPBlobImpl.cxx:147) is never printed:
  the property of a null pointer has been described just before. Names of types are asked for in the middle of lines (SerialiserFactoryWriters.h:60, SerializableMap.h:45-46) and print lines
  of their own there.
* **C103** Deserialising prints every primitive value it reads in the clear (`PrimToSerializer<...>::get - return value`), also into what a pointer points to, which serialising
  does not print (C102). The line for a `float` says `PrimToSerializer<bool>` (PrimToSerializer.h:115). `startComposite` reads the descriptor as a number, but the
  descriptors of objects are symbols: for every blob Corda or this library writes it says `UNKNOWN 0`. A blob whose descriptor is not that of an envelope is
  mentioned in the trace (AMQPBlob.cxx:340) and read all the same.
* **C104** reader-test-01 shows a file with a single number as two, since reading past the end of a list gives its last value again; and it does not look at the
  encoding, so that a compressed file is decoded as if it were not. An exception is nowhere caught: a missing file ends the program with `std::terminate`.
  The null pointer its constructor would follow (`*m_val2`, DeSerialiseMe.cxx:36) cannot occur: a null where a number is expected is refused before.
* **C105** reader-test-06 can never succeed: the vector is not read (C76).
* **C106** `toFile` does not look whether the file could be opened or written (CordaBytes.cxx:99-103): a writer given a path in a directory that does not exist
  reports success and leaves nothing.
* **C108** With a property that is a pointer to a character, whether serialising is defined depends on the character (C29).
* **C109** The file does not say which value belongs to which property if a fingerprint is used for two classes that write the same properties in
  different orders. In the repository fingerprints are chosen by hand, and programs share them (`DSM123`, `Inner123`, `Outer123`).
* **C111** There is no call of `pn_data_free` in the repository. The payload, each description of a property and of a class, the schema, the envelope and the
  tree a blob is decoded into are never given back, and `EnvelopeDescriptor::makeProton` and the others copy out of trees that nobody holds afterwards.
* **C112** `ReadPrimitive.h:47` makes the object of a pointer before its value is read, and `SerialiserFactoryReaders.h` hands raw pointers from one property
  to the next: if a later property throws they are lost, as is the new primitive itself if its value cannot be read.

* **C113** `SerialiserFactory.h:106-113` leaves the cursor of the blob's `pn_data_t` after the payload, on the schema, and no function rewinds it. After that
  `dumpData` and `dumpContents` of this blob and of every copy (copies share the pointer, `AMQPBlob.h:37`) are undefined, and `deserialise` throws. The same after
  a `deserialise` that threw.
* **C115** A class is described when an object of it is written. A null pointer (`writeNull`), an empty container and a pointer to an object of a
  derived class name classes that are described nowhere; the inspector then throws "Can't find" or "Missing type in serialisers map" for
  the whole blob, even where nothing of that class is to be shown. `char` is written but has no reader, with the same result.
* **C117** All three tools end without a word if the file does not exist, and the blob inspector also if it gets no file or two (bin/blob-inspector/main.cxx:12-20). writer-test-07 to -12
  say that they are to be used as `./writer-test-06`, which is another program, and reader-test-01 that it is to be used as `./reader-test-1`, which is none. The
  header the blob inspector complains about is shown as numbers with a sign where `char` has one (202 is shown as -54).
* **C118** `CordaBytes` takes the size from `stat` and does not check whether its reads succeed. A pipe or device has size 0, so 2^64 - 8 bytes are asked
  for and the tools are aborted (`std::bad_alloc` is no `std::runtime_error`). A directory leaves `encoding` uninitialised (undefined for the inspector; the
  dumpers refuse the header of zeros). Of a file that shrinks, zeros are shown.
* **C119** `CordaBytes::toFile` does not look at the stream: a file that does not fit is cut, one that cannot be opened is left as it was, and the
  program reports success either way.
* **C120** `proton::is_symbol` says "Expected an unsigned long" (proton_wrapper.cxx:166), also to an unsigned long; `is_symbol`, `attest_is_string`,
  `get_string`, `get_boolean` and `get_int` do not say what they found.
* **C121** A class without a fingerprint inside an object is found out only after the beginning of the object was put into the blob
  (ModifiableAMQPBlobImpl.cxx: `startComposite`); what follows then makes a blob that cannot be opened. A class that was given the text for a missing
  fingerprint is refused by an AppleClang build only.
* **C122** A serialiser that does not step over its value makes the next property be shown wrongly, and nothing checks for it. Installed after a blob
  was shown, a serialiser replaces the only owner of a reader (CompositeFactoryInternal.cxx:365) that composites and lists point to with a `weak_ptr`:
  showing the same blob again throws "null field reader" or, for lists, uses a null pointer.
* **C123** `StringPropertyReader::dump` and the data dumper show a text as it is. A text with a line end breaks the dump into lines, and the last one
  can be made to look like the dump of another blob.

## Simplifications

* `nestedGenericTypes` and friends: the `int` bracket counter is a natural/integer without overflow.
* `Field::Field` prints a moved-from string (Field.cxx:133); it is modelled as the empty string.
* `Enum` keeps a moved-from name (Enum.cxx:20-26); it is modelled as the empty string.
* Lookup tables (`std::map`) are association lists in which the first entry counts; iteration order over them is
  modelled only where the code iterates.
* Recursion over data takes a fuel argument; theorems show that the fuel supplied is never exhausted.
* `dispatchDescribed<T>` returns an unchecked `static_cast`; the model reports a null or wrong class at the cast, since
  every caller uses the object as a `T` straight away.  (A null in the place of a field is only used later; no finding rests on that.)
* Copying no bytes from a null pointer (`memcpy (p, nullptr, 0)`, the binary accessors on data that are not binary) is not counted as undefined.
* Serialisation (`Writer`): an object is given as the list of `write` calls its `serialiseImpl` makes; what C++ type a
  call is instantiated with is part of the object (`Member`).  Destructors (`AutoComposite`, `AutoRestrictedWrite`) are
  run on the exception path too.  Only the two container classes the library has are modelled.  `std::map` iteration is
  in key order, strings compared by code unit (`strLt`).
* Deserialisation (`RoundTrip`): a class is given as the list of `read` calls of its `deserialiseImpl`.  An object
  read is the tree of the values read (`RVal`); whether a part is held by pointer or by value is in the class.  There is
  no reader for maps in the library (it does not compile).
* `readEnvelope` is the part of `dumpContents` up to the first use of the envelope.
* Readers (`Factory`, `Readers`): the reader objects are numbered; a `weak_ptr` is such a number, and it is alive if some
  entry of the two maps owns the object.  Custom serialisers are a parameter (`Customs`), the one that exists is
  `publicKeyDump`.  Recursion over readers takes fuel, the height of the tree.
* `Render`: `std::to_string` of floating point numbers is modelled as exact decimal expansion rounded half to even at
  six places, as glibc's `%f` does in the default rounding mode.
* The schema dumps write to a string stream; here each function returns what it writes.  The loop counters (`int`) do not
  overflow.  `ss_ << data_` (ObjectDescriptor.cxx:64) is the operator of proton_wrapper.h, not the one for pointers; the names of the types
  are those of proton's `pn_type_name`.
* Saving: except in `Model/Saving` (C119), the disk has room for everything; there, what waits in a buffer is left out, since it gets to the file in the
  same order, and two names are two files.
* Tools: except in `Model/Sources` (C118), `stat` and the later opening of the file see the same content, a name that `stat` finds can be read, and there is
  enough memory. `pn_data_decode` is a parameter (`System.decode`): any
  function from bytes to a count and a tree. Output on standard error is in `Model/StdErr` only, without the line for a number in the place of a described value (proton_wrapper.cxx:180-182) and without what the runtime says of an exception that leaves `main`; of an exception that is caught only the label is there. Except in `Model/Trace`, `Model/SchemaTrace`, `Model/InspectTrace` (one for each tool) `Model/WriteTrace` (serialising) and `Model/ReadTrace` (deserialising), the library's trace on standard output is dropped; output never fails.
* Processes: `written` lists what was written; whether it replaces something, and a disk that is full, is modelled in `Model/Saving` (C119) only. The order of standard output and standard error is not modelled either.
* Traces: what a class prints itself, in `serialiseImpl` before it writes, in `deserialiseImpl` before and after it reads, and in its constructor, is a parameter of C102 and C103; C104 and C105 fill it in for the sample programs.
* Traces: a `DBG` that spans several lines is given the number of its first line; compilers differ in the number they give. Which address is printed for a pointer is not
  modelled, all print the same. Flushing is not modelled.
* Fingerprints: with a compiler other than AppleClang a class without a fingerprint is an undefined symbol and the program is not linked; in
  `Model/Fingerprint` such a build has a text for every class.
* Own serialisers: `dump` of a serialiser is any program on the cursor; it cannot change the tree or the factory.
* Encoder: `Wire.encode` is not code of the repository; it is what `pn_data_encode` of qpid-proton chooses, without arrays, which nothing in /repo
  writes. C98 for saved files, C107, C109 and C114 use it; C104-C106 are for every encoder.
* Wire: `Wire.decode` is not code of the repository; it is AMQP 1.0 part 1 section 1.6 as `pn_data_decode` of qpid-proton is meant to read it,
  without arrays of described values.  On bytes that are no encoding proton may behave differently; C71 speaks of encodings, of prefixes of
  encodings and of encodings with more bytes behind them only.  C68-C70 hold for every decoder.

## Edits of the model (`seeded/LOG.jsonl`)

Each line is one wrong edit of one definition. `breaks` is the claim whose English is false of the edited model, `failed` the theorems that no longer
check: their own proof has an error, or that of a lemma they use. A proof can break although its statement would still be true, so `failed` says
that an edit is noticed, not that each of these theorems is refuted. Where the first prediction of `breaks` was wrong, `note` says so.
Searched were the theorems of the predicted claims; all theorems only if none of these failed, so `failed` need not be complete. For T013, T014, DD001, DD002, DD013, HH004
and HH005 the examples in the file of the theorems were left out (for HH004 and HH005 also `C118_shrunk_violated`, for T013 and T014 also
`C102_dump`, which was checked separately), as evaluating them with the edit exhausts the memory.

## Check of the model against the repository

`Props/Samples.lean` runs the whole model (file, header, decoder, schema, readers, output) on the 25 files of bin/test-files.  The output is what
blob-inspector-test.cxx expects for all 24 active tests; for the test that is switched off it is the wrong output its comment describes.

`Props/SavedFiles.lean` (C107) compares the writing half with the files in bin/reader-tests that real runs of the programs left: the processes of
`Model/Processes` with the encoder of `Model/Encoder` save reader-test-03's and reader-test-04's serialized.bin, 414 and 531 bytes, without
a difference. writer-test-1-op is from an older version of writer-test-01 (another fingerprint, the same number twice); the library of today
writes the same bytes for that object.
