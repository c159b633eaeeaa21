# Formal model of emory-libraries/eulxml in Lean 4

The model is a Lean 4 program that follows the Python sources function by function; every definition cites the
file and lines it models and says where it simplifies. The properties are in `properties.jsonl`; each is stated as
one or more theorems `Cnn_*` in `lean/Verif/Props/`, listed in `MANIFEST.json`. `seeded/LOG.jsonl` records the
wrong programs against which the theorems were tested. `AXIOMS.md` lists the axioms of every property theorem.

## 1. Layout

| modules | contents |
|---|---|
| `Verif/Basic.lean`, `Verif/Py/Dict.lean` | strings as character lists, Python exceptions, dictionaries |
| `Verif/Xml/Node.lean`, `Xml/Engine.lean` | data model of lxml: element tree with tag, ordered attributes, text, children, tail; XPath engine as a parameter |
| `Verif/XPath/Ast.lean`, `Serialize.lean` | `eulxml/xpath/ast.py` |
| `Verif/XPath/Lexer.lean` | `eulxml/xpath/lexrules.py` in PLY's rule order, `LexerWrapper` of `eulxml/xpath/core.py` with its state |
| `Verif/XPath/Parser.lean` | the parser that PLY builds from `eulxml/xpath/parserules.py`, `parse` of `core.py` |
| `Verif/XPath/Grammar.lean` | **specification**: the productions of `parserules.py`, one constructor each |
| `Verif/XPath/Canon.lean`, `Lexeme.lean` | **specification**: canonical trees; texts of single tokens |
| `Verif/XPath/OnDemand.lean`, `ParserLocal.lean`, `ParserViable.lean`, `Threads.lean` | the parser as a consumer that asks the lexer for one token at a time; viable prefixes; interleavings of `parse` calls on the shared lexer |
| `Verif/XmlMap/Fields.lean`, `Manager.lean`, `NodeList.lean`, `Mappers.lean` | `eulxml/xmlmap/fields.py` |
| `Verif/Core/Classes.lean`, `Objects.lean`, `SchemaTypes.lean`, `Nested.lean` | `eulxml/xmlmap/core.py`, `SchemaField`, field numbering; objects reached through chains of NodeFields |
| `Verif/Core/Catalog.lean` | `eulxml/catalog.py`, `eulxml/__init__.py` |
| `Verif/Forms/*.lean` | `eulxml/forms/xmlobject.py` and the parts of Django's forms that it relies on: `FieldList` (dotted lists), `FormClass` (which parts), `Options` (with which options, labels, widgets), `Initial`, `Update`, `Formsets` (abstract documents), `Tree` (subforms on the document), `Page` (names and HTML), `FormsetDoc`, `FormsetForms`, `Whole` (formsets on the document) |
| `Verif/Domain/*.lean` | methods of `cerp.py`, `eadmap.py`, `mods.py`, `premis.py`, `teimap.py`; tables of all bundled fields (`Bundled.lean`, `BundledLists.lean`, generated from the sources by `tools/bundled.py`) |
| `Verif/Spec/*.lean` | **specifications** that do not mention the model: meaning of simple XPaths, what is created and deleted, frames, Python lists, records, words |
| `Verif/**/*Lemmas.lean`, `XPath/Parser{Sound,Complete,Correct,Fuel}.lean`, `RoundTrip*.lean` | helper lemmas |
| `Verif/Props/*.lean` | the property theorems, with non-vacuity examples and counterexamples |

Conventions. A theorem `Cnn_counterexample_*` proves that the claim fails outside the domain stated in
`properties.jsonl` (the code has a limit or a bug there); the domain is part of the statement of the property. A
theorem with suffix `_partial` would prove only part of a property. A Python exception is a value and the state
reached when it is raised is kept, so theorems also speak about what failing operations leave behind.

## 2. Modelling decisions and proof methods, per property

**XPath language (C01-C11).** The lexer works on `List Char`, rule by rule in PLY's order (functions in source order,
then strings by decreasing length of the regular expression), with the wrapper's state explicit. PLY's LALR(1)
tables are not transcribed: the parser is a precedence-climbing parser for the same token language. This step is
covered by theorems: the grammar is transcribed as an inductive type of derivation trees, and the parser accepts
exactly the derivable token sequences and returns the tree which the precedence table selects.

| | theorem idea | method |
|---|---|---|
| C01 | `parse (serialize e) = e` for canonical `e` | induction on the tree, through tokens (RoundTripParse) and characters (RoundTripLex) |
| C02, C03 | accepted strings = strings whose tokens the grammar derives; the value is that of the derivation | induction on fuel (soundness), on derivations (completeness), fuel sufficiency |
| C04 | the tree is the one the precedence table selects, and is unique | induction on derivations |
| C05 | `serialize (parse s)` parses to the same tree, for derivations without grouping parentheses | canonicity of parsed values; counterexamples with parentheses and literals |
| C06 | result of `parse` after any history of calls | the wrapper state as a state machine; induction over the history |
| C07, C08, C09, C11 | token classes, names, white space, losslessness | characterisation of each token, induction over the input |
| C10 | which literals survive `repr` | case analysis on quotes and characters; C10_hex: the digits of escapes |

**Single-value fields (C12-C24, C75).** All functions of `fields.py` between `_find_terminal_step` and
`SingleNodeManager` are modelled branch by branch on a tree with addresses. `node.xpath(...)` is a parameter
(`Engine`). The theorems about writing hold for every engine with `Spec.EngineOk`: on XPath strings of a fragment
(relative paths of child steps with name tests, ending in an element, attribute or `text()`, with predicates built
from such paths compared with strings, integers or variables) it returns the nodes that XPath 1.0 prescribes, as
defined in `Spec/SimplePath.lean`. `refEngine_ok` proves that an engine with this property exists. Statements compare
the document after the operation with the specification (`Spec/Create`, `Spec/Delete`, `Spec/Frame`); proofs by
induction on the path and on the tree. C15, C20, C75 and others hold for every engine.

**Other documents for the same operations (C16, C19, C22, `Edges`).** `Props/DeleteAny` states deletion for arbitrary
(not only simple) documents through `Spec/Pruned`; `Props/OwnGraft` covers assigning a node of the object's own
document; `Props/Edges` collects behaviour at the borders of the path fragment.

**Deletion with any XPath (C110).** A relation between documents, `Spec/Shrunk` (mutual inductive: elements, attributes, texts taken away, each kind
only if the XPath has such a step), is shown to be kept by every part of `_remove_xml` by structural induction on the expression, for every engine;
XPaths whose last step is not handled leave the document alone.

**Computed XPaths (C113).** `Spec/Computed` says which expressions compute a value and which results count as false; the theorems in `Props/Computed`
give the outcome of every operation by cases on the result, for every engine.

**Objects inside documents (C111).** `Spec/Local`: an XPath looks downwards (`Downward`), a program for an object is local (`LocalProg`: result and
effect at address `a` are those at the root of the element taken as a document). `XmlMap/LocalLemmas` and `XmlMap/LocalLists` show by structural
induction on the expression that creation, removal, setting and the list operations lift; `Props/Local` has the theorems. The element taken as a
document keeps its tail (lxml drops it when parsing only); values that are elements of the same document (C22) are left out.
C114 (`XmlMap/OverwriteLemmas`, `Spec/Overwrite`): `insert` in front of the end on paths of several steps, by the lemmas of C100: the blank element goes to the
first parent (`_create_xml_node` drops the position), then an item is overwritten; at least one parent, kinds that can read a blank element.
C115 (`Props/BundledCells`): the field tables of C72 instantiated for C107; which field is an attribute of whose element is a table that the kernel checks against the XPaths of all bundled classes.
C116 (`Spec/Grown`, `XmlMap/GrownLemmas`, `Props/Grown`): the counterpart of C110 for assignments, without assumption about the engine: creation of a step is one insertion

C117 (`Spec/Search`, `XmlMap/SearchLemmas`, `XmlMap/SearchRun`, `Props/Search`, `Props/BundledSearch`): fields whose XPath is made of child steps (names, `*`, `p:*`, attribute predicates), `.`, `/`, `//` and `|`. The meaning of such a path is a language `P : List Label → Bool` over the labels (tag and attributes) on the way from the object's element to the selected one; `lang` computes it from the AST. `inside P` lists the selected descendants in document order, `around P` is the element without them. By induction over the tree, for all languages at once (going down one level takes the derivative `P.after`): changing the k-th member (to one that is selected there too and has no members inside) sets the k-th item, removing it erases the k-th item, and neither changes `around`; the operations of `NodeList` are then those of a Python list, for unions and `//` of one to which nothing can be added (`fixedOp`; `_create_xml_node` does not know these). Engine assumption `SearchOk`: such a path selects the elements whose way is in its language, in document order; met by `searchEngine`. Only attribute predicates; members must not be nested (`C117_counterexample_nested`); absolute paths, `..` and `//.` are not covered by C117 (only by C110, C113, C116).
(the predicates are built inside the new element, by the locality of C111), by induction on the expression; `Written` = `Grown` and one `Touched` element; sequences by the weaker, transitive `Survives`.

C118 (`Spec/TextList`, `XmlMap/TextListLemmas`, `Props/TextList`): list fields whose XPath ends in `text()`, by the same method as C105: the texts of the selected elements in document order are the list; an index assignment is one `el.text = …`; operations that change the length end in lxml's `TypeError`, because the matches are strings.  Elements with text behind a child are excluded (`oneText`), with the refuting document `C118_counterexample_tail`.  An element whose text is the empty string counts as having a text node (lxml keeps the empty node that `el.text = ''` creates).

C119 (`Forms/FormsetTrees`, `Forms/FormsetTreesProofs`, `Props/FormsetTrees`): the formset of C88 whose forms are the trees of C85. The construction of a form (the elements of the subforms are created on the member) and the state of each form are modelled. Each run of a form on its element is shown to be the first one (first_run) or to change nothing (Settled), so the formset follows the abstract formset of C52 with a form function that acts once (onceUpd); the lists are those of C88.

C120 (`Spec/Found`, `Props/Found`): assignment through an arbitrary XPath that selects something. `EndsIn` (the last step) and `Assigned` (the effect on the selected node) are inductive relations; the theorems give the complete case distinction of `managerSet` and `listSet`, for any engine that fits the last step.

C121, C122 (`Spec/Programs`, `XmlMap/ProgramLemmas`, `XmlMap/ProvenanceLemmas`, `Props/Programs`, `Props/Provenance`): arbitrary programs of statements over fields and lists (`AnyStmt`), any XPath, any engine, exceptions caught. C121: the list of comments, processing instructions and tailed elements (`foreigners`) only shrinks, as a sublist; for it `Spec/Grown` now says that whatever is added is an element without tail (`AllNew`), which needed that constructing predicates adds only such things. C122: an invariant `MadeOf K A V T` (tags, names of attributes, values, tails) is kept by every function that writes, by structural recursion over XPath expressions, and by grafting and moving objects (`ObjStmt`); the theorem instantiates it with what the document has and what the program mentions.

C123 (`Props/Taking`): `del`, `pop`, `remove` on a list with any XPath and engine. The XPath's result and the mapper are parameters (`Selects`, `Yields`); the run is followed step by step, and idxOf? gives the first item. Success and the exceptions are separate theorems, so that a model that always raises fails them.

C124 (`Spec/Errors`, `XmlMap/ErrorLemmas`, `Props/Exceptions`): a closure predicate `Raises P c` (whatever c raises satisfies P, in any state), by structural recursion over XPath expressions for creation, construction of predicates and removal, with P instantiated by the exceptions allowed for the reasons found in the sub-expressions. `append` and `remove` are followed in the state, since that they do not raise IndexError depends on it.

C125 (`Props/Again`): from the runs of C120 (what an assignment makes of the found node): replacing a text or attribute by itself is the identity, replacing twice is replacing once; for lists by induction over the values with an unchanged document.

C126 (list operations, any XPath): `Lists` says that the XPath selects items and what they read; each operation of `runOp` is compared with `pyList` (Spec/PyList). Reading operations agree and keep the document; taking operations agree and take out the item at the position Python takes; negative indexes are rewritten to positive ones in the code's own terms; `extend` is a homomorphism. Proved from C123's lemmas.

C127 (interleavings): Spec/Interleave defines a client as a tree of statements branching on their results (exceptions included), schedules as lists of client names, and `alone` as the client with a document to itself. Proved from C111's locality: a turn is a replacement of the client's own subtree, replacements of separate subtrees commute (`modify_swap`), induction over the schedule, over permutations of it, and, for clients that finish, by running both schedules one after the other in both orders.

C128 (exchange of assignments): by C120 an assignment that works is an edit of one node that leaves its children alone (`Shallow`); such edits at different addresses commute even when one address is inside the other (`shallow_swap`), and at the same address for different existing attributes, or an attribute and a text.

C129 (interrupted list assignments): `Refused` says that a value cannot be stored at whatever node. `listSet` with such a value is compared with `listSet` that stores nothing (`noStore`), so that the lemmas about positions (C25, C28) can be used again with the trivial mapper; the rest is splitting the loops at the refused value.

C130 (assigning a list ends): `listAssign`'s loop (fields.py:845-846) is modelled as a recursion over a number of rounds, which is the number of nodes of the document (Xml/Count.lean) plus the length of the list; Spec.While is Python's loop without such a limit, as a relation. Proved by induction over the number of nodes: every `pop` that does not raise makes the document smaller (XmlMap/TrimEnds.lean), so the loop ends and the model gives its result, whatever the XPath. From the last test of the loop: the list is not longer than the value then.

C131 (emptied lists): Spec/ListStmts.lean has statements about one list (an operation, an assignment of the whole list, its deletion) and what they do to a Python list. Histories of them by induction, from the one-statement lemmas behind C25–C27; an element that is the same but for its members, and has none left, is determined (`emptied_eq`), so any two histories that empty the list agree on the document.

C132 (a list assigned to itself): `storeNode` with the place itself as the value is `match.getparent().replace(match, match)`, which does nothing; from that each assignment of the loop leaves the document alone, so that the XPath selects the same again, whatever it is. XmlMap/SelfAssign.lean models `obj.list = obj.list`, where the value is evaluated anew at each index.

C133 (what clearing takes out): `TakenMany` is a chain of items that are taken out, each an item of the list at its time. By induction over the items of `del` with C123 for `remove`, and over Spec.While with C123 for `pop`.

C112: histories of C109 with programs through the kept objects in between (`XmlMap/Live`), refined to a shelf of documents (`Spec/Live`) by the tagging of
C109 and the locality of C111; every element must fit the step after each program (`LiveOk`).

**List fields (C25-C30, C67, C76, C83, C100, C105, C108, C109).** C109: values that are in the list already, `XmlMap/Moving`
(objects are numbered, each with the place of its element), refined to a shelf (`Spec/Shelf`) by tagging the children with the objects' numbers;
one child step, insertion index at least 0, `remove`/`index`/`count` (by equality) not included, the objects' elements are members of the list or outside.
C108 gives the exact effect of insertion at a negative index (`Spec/NegInsert`), by the same refinement as C25 with one changed operation. `NodeList` operations as state transformers; refinement to Python lists
(`Spec/PyList.lean`), histories by induction over the list of operations, failing operations included. All list kinds
(strings, integers, floats, dates, date-times, nodes) with one child step; C76 adds a single-value field that shares
the XPath; C83 list fields of several steps whose parent path selects at most one element (`Spec/DeepList`), C100 at least one: a reference machine on the items of each parent (`Spec/ManyList`, `XmlMap/ManyListRun`). C105: lists of attributes (`Spec/AttrList`, `XmlMap/AttrListLemmas`), which cannot change their length.
C95 (`XmlMap/Iterate`): loops over a list field whose body changes it, as Python's iterator protocol over `__iter__`
and over indices; C96 (`XmlMap/ListBetween`): list fields of two documents, elements move.

**Mappers (C31-C36, C80-C82, C106).** Text of integers, booleans, dates and date-times: inverse functions proved by
arithmetic on digits; date arithmetic with the proleptic Gregorian calendar (`Spec/Calendar`). C80: user-given formats
with the numeric directives and literal text (`Spec/Formats`). C81: the written text. C82: floats are a parameter
(`FloatLib`) with the laws that Python documents for `float(repr(x))`. C106: aware datetimes (`XmlMap/Zones`): the offset CPython writes, and
counting of signs to show that a text with an offset in seconds has no match.

**Threads (C78, C79).** `lexer.input` and `lexer.token` are the atomic steps on the shared lexer; schedules are
arbitrary interleavings; induction over the schedule. C79 by viable prefixes of the grammar.

**Records (C69-C74, C77, C84, C107).** Several fields of one object: pairwise non-interference is a decidable condition on
the paths (`Spec/Record.lean`); every history behaves like the same history on a record (of values and Python lists).
C72 and C77 instantiate this for all bundled classes: the tables are generated from the sources, and the check that
all pairs of fields are independent, except the listed ones, is one kernel evaluation over the (finite) tables;
documents, histories, values and contexts remain universally quantified. C84 does it for objects in objects to any
depth (`Core/Nested`), by induction on the attribute chain. C70: saving a form. C107 (`Spec/Cell`, `XmlMap/CellLemmas`): fields `p` and `p/@x`, which do interfere: refinement to
elements that can be missing.

**Classes and objects (C37-C46, C65, C66).** A running program as a sequence of class creations with C3 linearisation,
`__dict__`, and the metaclass; invariants by induction over the program. Schema cache and validation log as state
machines over histories.

**Forms (C47-C54, C68, C85-C94, C101-C104).** Field lists, generation of form classes, initial data, `update_instance`,
`is_valid`, formsets; induction over field lists, nested models, form trees and formset rows. C85 saves a form tree
into the document (nested inductive type of forms, `Spec/FormTree` says what each object must read afterwards); C86 and
C87 names of inputs and the page; C88-C90 formsets on the document: deletion of elements while forms are walked,
reordering, new elements, and the composition with subforms (`Spec/Whole`). C91-C93 the options of form classes:
`Forms/Options` refines `Forms/FormClass` (C91_same_parts), so C48 and C68 apply to it. C94: a form shown, edited in
the browser and sent back; `Spec/Submit` says what the object must hold then. C101: the same for the formset of a list
field (`Forms/ListSubmit`, `Spec/ListSubmit`), for any POST data; Django's counting of forms is part of the model.
C102: the same for the formset of a NodeListField (`Forms/SetSubmit`, `Spec/SetSubmit`): which forms count as changed,
blank, deleted, valid, and what the list holds then. C103 puts C94, C101 and C102 together for a form with subforms and
formsets (`Forms/WholeSubmit`, `Spec/WholeSubmit`), on top of C90. C104: `formfields_for_xmlobject` called directly
(`Forms/Direct`) against the class statement of C91.

**The object's own element; transformations (C97, C98).** `.` parses to an abbreviated step outside of the path fragment;
its meaning is the extra engine hypothesis `SelfOk`. `Core/Transform` has parser, serialiser and XSLT processor as
parameters; the theorems relate the ways to give a stylesheet to each other for every processor.

**Catalog (C55-C57).** Download and registration as state machines over file system and network outcomes; the catalog
document is built through the list-field model.

**Domain classes (C58-C64, C99).** Each method runs through the field models on documents. C99 is a state machine over
histories of accesses and outcomes of the download.

Per-property notes (domain restrictions and counterexamples) are in `MANIFEST.json`.

## 3. Trusted base

1. Lean 4.33.0's kernel. Axioms used by the property theorems: at most `propext`, `Quot.sound`, `Classical.choice`
   (`AXIOMS.md`, produced by `tools/axioms.sh`). No axioms were added; nothing rests on compiled evaluation.
   `decide +kernel` evaluates in the kernel; it is used for concrete examples and counterexamples and for the finite
   tables of C72 and C77.
2. That the definitions say what the Python sources do (cited line by line).
3. What the definitions say about code outside the repository: PLY's order of lexer rules and yacc's resolution of
   conflicts by precedence; lxml's data model (text and tail, `append`, `insert`, `remove`, `replace` and what they do
   with tails, which characters are refused); XPath 1.0 for the engine hypotheses (`EngineOk`, `EngineUnionOk`);
   Python 3 semantics (`int`, `str`, `repr`, slices, negative indices, dictionaries, C3 linearisation);
   `datetime` (`strftime`, `strptime`, `isoformat`), Django's formset and form validation protocol; `requests`; the
   `email` package.
4. `tools/bundled.py`, which reads the tables of bundled fields from the sources with Python's `ast` module.

Where the behaviour of a library was uncertain or varies, it is a parameter and the theorems hold for every choice:
the XPath engine, `str.isprintable` outside ASCII, deepcopy's treatment of tails, the XML serializer, schema
validators, network and file contents, charset decoding, e-mail date conversion.

## 4. Not modelled, and simplifications

* XPath: floats are exact decimals (binary64 rounding is not modelled: exact up to 15 significant digits).
  Python 3 only.
* Documents: entity references and CDATA sections; namespace prefixes of nodes (names are expanded); comments and
  processing instructions are kept as opaque nodes.
* Fields: insertion in front of the end of list fields with several steps (C28 has the counterexample), list fields
  whose parent path selects several elements; Python's limit of 4300 digits in `int()`; time zones; month and day names,
  `%p`, `%I`, `%j`, `%z` in user-given formats; NaN and negative zero.
* Core: the serializer and the XSLT processor of lxml (parameters), pickling.
* Forms: Django's own field cleaning and HTML of single inputs (parameters); formsets inside subforms in C85 and C90
  (covered one level at a time in C88, C89); `Meta.fields` as parsed lists in form trees (they raise TypeError,
  C49_counterexample_subform).
* Catalog: buffered writes; missing `requests`.
* Domain: trivial accessors.

The list is kept current with the model; each file's header repeats what it leaves out.
