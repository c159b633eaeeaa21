{
 "C05": {
  "statement": "For every s that parses to e, parse(serialize(e)) equals e, provided s has no grouping parentheses, e has no lone '/', and its leaves can be written (no literal with characters that repr() escapes, no float needing an exponent, no node type literal, no minus directly after a name). Each of the excluded cases really fails (counterexamples).",
  "quantifier": "every string accepted by parse, in the stated class"
 },
 "C06": {
  "statement": "After any finite history of parse calls, parse(s) gives what it gives in a fresh process, if the last call of the history succeeded (or failed at the end of its input), or if s does not start with a name or '*'. Otherwise it can differ: after the failed call parse('a b'), parse('text()') fails (counterexample)."
 },
 "C07": {
  "statement": "'*' and or/and/div/mod are operators exactly when there is a preceding token other than @ :: ( [ or an operator; otherwise a name followed by '(' is a node type or function name, followed by '::' an axis name, and otherwise a plain name - at every position not directly after ',' or '$', where the W3C rule is violated (counterexample).",
  "quantifier": "every token sequence and every position in it that is not directly after ',' or '$'"
 },
 "C08": {
  "statement": "At every position of a string without characters U+00C0..U+00D6 the longest NCName (XML Namespaces 1.0) starting there is lexed as one name token, and no name token is produced where no NCName starts. For U+00C0..U+00D6 the claim is false: the character class is misspelt (counterexample).",
  "quantifier": "every Unicode string without U+00C0..U+00D6"
 },
 "C10": {
  "statement": "A string that lacks one of the two kinds of quotes, used as a literal in an AST, is re-read by parse as the same string after serialisation if and only if it has no backslash and only printable characters.",
  "quantifier": "every string that lacks one of the two kinds of quotes"
 },
 "C12": {
  "statement": "After obj.field = v on a string field whose XPath is a simple path (child steps with name tests, ending in an element, an attribute not called 'text', or text(); predicates are such paths, optionally compared by = with a literal, integer or variable, and do not speak about the next step), the assignment succeeds and reading obj.field returns v; unless the first match is an element with children, then the assignment raises and the document is unchanged. Attributes called 'text', predicates that name the target, and text() matching text after a child are excluded because there the claim is false (counterexamples).",
  "quantifier": "every document, every simple path of any length and predicate depth, every string of XML characters, every conforming XPath engine"
 },
 "C13": {
  "statement": "obj.field = v (for every XPath, whether it succeeds or raises) leaves every element in its place with its tag and tail, and changes text and attributes of at most one existing element, the one that matched. For simple paths: the only differences are the text or attribute that the field selects afterwards and at most one new last child of one element (none if there was a match), and nothing outside of the object's element changes.",
  "quantifier": "every document and value; every XPath and engine for the first part, every simple path for the second"
 },
 "C14": {
  "statement": "When the target of a simple path is missing, exactly the steps behind the longest existing prefix are created, at the end of the first match of that prefix: one new last child, which has the step's name and satisfies its predicates; existing children are untouched.",
  "quantifier": "every document and simple path without a match"
 },
 "C15": {
  "statement": "If a field has no match and creation would start at a step that cannot be created (other axis than child/attribute, wildcard, node-type test other than text(), a predicate with such a step or a comparison with a non-value), or its XPath is no path of steps, the assignment raises and the document is unchanged. If a missing constructible step precedes the refused one, it is left behind; predicates of other kinds (e.g. [2]) are silently not built (counterexamples).",
  "quantifier": "every engine, XPath, document on which it has no match, and value; for refusal at the first missing step"
 },
 "C16": {
  "statement": "del obj.field, for a simple path whose first match lies in the first match of the path without its last step, removes that match (an element with its tail, an attribute, or sets text() to ''), and otherwise at most one element on the path that contained it; nothing outside of the object's element changes; if it was the only match (and no text()), the field then reads None. No exception is raised unless a predicate compares an attribute of a child (b/@k='v'), where KeyError can be raised after the match was removed (counterexample). Without the alignment condition nothing is removed or KeyError is raised (counterexamples).",
  "quantifier": "every document and every simple path (attributes, children and paths in predicates), under the alignment condition"
 },
 "C17": {
  "statement": "Assigning a value that the mapper turns into None (None for string and integer fields, None/False for booleans without false value) has exactly the effect of del obj.field; when the field has no match, both leave the document unchanged and raise nothing. Date fields raise on None, and booleans with a false value write it (counterexamples).",
  "quantifier": "every document, every XPath, every engine"
 },
 "C18": {
  "statement": "If a field with a simple path (all predicates, also inside of predicates, end in a value; not text()) had no match, and every element already on its path holds something besides what the predicates require, then obj.field = v followed by del obj.field restores the document exactly, including removal of the parents created for it. Empty pre-existing parents are removed, attributes created for a predicate without value stay, and so do elements created for a predicate like b[c='x']/c='y' (counterexamples).",
  "quantifier": "every document without a match, every simple path with valued predicates (attributes, children, paths without child attributes), every value"
 },
 "C19": {
  "statement": "Apart from the match, deletion removes nothing, or exactly one element on the path; and then everything from it down to the element that held the match is a chain of elements each of which has, besides the next one, no attributes and children but those that the predicates of its step require with a value, where a child required by a predicate in turn holds nothing but what the predicate requires of it. Text does not count: an element holding only text is removed (counterexample).",
  "quantifier": "every document and every simple path (attributes, children and paths in predicates), under the alignment condition of C16"
 },
 "C20": {
  "statement": "Reading a field never changes the document, whatever the XPath, mapper and outcome; if the XPath selects nothing, string, integer and date fields read None, a boolean reads False without false value and None with one; for simple paths a string field reads the text of the first match."
 },
 "C21": {
  "statement": "obj.create_foo() on a simple path makes the path match and returns the first match; it changes nothing if there was a match; a second call returns the same node and changes nothing.",
  "quantifier": "every document and simple path not ending in text()"
 },
 "C22": {
  "statement": "obj.node_field = other (the root of another document): the field's element is created if missing exactly as by create_<field>(); it then keeps its tag and place and has the attributes, text and children of other, and no tail; no other element changes; and the field selects it, if other satisfies the predicates of the last step. The tail and the predicate attributes of the element are lost (counterexample). With an element of the same document that is neither inside nor around the field's element, its children move: it keeps its attributes and text but has no children any more, and nothing else changes. With an element inside of the field's element, its content replaces the rest. (With an element around it: ValueError and a damaged document, counterexample; with the field's own element: emptied, C24.)",
  "quantifier": "every document, simple element path and assigned tree"
 },
 "C24": {
  "statement": "obj.foo = obj.foo leaves the document unchanged for string fields on a simple path whose match is an attribute, a leading text or an element with text and no children, or that have no match. For NodeFields it empties the element, for every document (counterexample).",
  "quantifier": "every document and simple path"
 },
 "C25": {
  "statement": "Any sequence of len, getitem, setitem, delitem, append, extend, insert, pop, remove, index, count, in, == on the NodeList of a single-step child field (lists of strings, normalised strings, integers, floats, dates, datetimes, both also with a format, and of nodes) gives the results and errors of the same sequence on the Python list of its items, and at the end the field shows the list that Python has. Documented deviations: assigning at index len appends; inserting behind the end raises IndexError. Excluded: insertion at a negative index (which overwrites the last item), attribute lists, multi-step paths, assigning a member of the list to itself, members that cannot be read (no date, for instance).",
  "quantifier": "every document, element and list field (strings, integers up to 2^53, elements from elsewhere) whose XPath is one child step with buildable predicates (attribute predicates for strings and integers), whose current members the field can read; every finite sequence of operations with any integer indices >= 0 for insert, any integers elsewhere"
 },
 "C26": {
  "statement": "After obj.list_field = values, reading the field gives exactly values, whether the list was shorter or longer before, and only members of the list changed.",
  "quantifier": "every document, element and list field (strings, integers up to 2^53, elements from elsewhere) whose XPath is one child step with buildable predicates (attribute predicates for strings and integers), whose current members the field can read; every list of storable values"
 },
 "C27": {
  "statement": "del obj.list_field removes every member and nothing else; the list then reads []. (Lists of attributes raise TypeError.)",
  "quantifier": "every document, element and list field (strings, integers up to 2^53, elements from elsewhere) whose XPath is one child step with buildable predicates (attribute predicates for strings and integers), whose current members the field can read"
 },
 "C28": {
  "statement": "append creates the new element directly behind the last member of the list, or at the end of the parent if the list is empty; the new element is a member that shows the value, and all other children stay as they are. (Not for multi-step paths.)",
  "quantifier": "every document, element and list field (strings, integers up to 2^53, elements from elsewhere) whose XPath is one child step with buildable predicates (attribute predicates for strings and integers), whose current members the field can read; every storable value"
 },
 "C29": {
  "statement": "Any sequence of list operations changes only the field's element, and of that keeps the tag, attributes, text, tail and all children that are not members, in the same order.",
  "quantifier": "every document, element and list field (strings, integers up to 2^53, elements from elsewhere) whose XPath is one child step with buildable predicates (attribute predicates for strings and integers), whose current members the field can read; every finite sequence of operations"
 },
 "C30": {
  "statement": "getitem/setitem/delitem/pop with an index outside the list and insert behind the end raise IndexError; remove/index of an absent value raise ValueError; a key that is neither an integer nor a slice raises TypeError, and a slice AssertionError (True and False are the integers 1 and 0); in each case the document is unchanged.",
  "quantifier": "every document, element and list field (strings, integers up to 2^53, elements from elsewhere) whose XPath is one child step with buildable predicates (attribute predicates for strings and integers), whose current members the field can read; every index and value"
 },
 "C31": {
  "statement": "Reading an IntegerField after writing the int n returns n: for every n if the field is an attribute or text(), and for |n| <= 2^53 if it is an element (read through XPath number()). Reading any text gives an int or None; the only exception is OverflowError for an infinite number.",
  "quantifier": "every engine with standard XPath semantics on simple paths; every document, element and field whose XPath is a buildable simple path (child steps, final attribute or text()); every integer (Python's 4300 digit limit is not modelled)"
 },
 "C32": {
  "statement": "With true != false, writing True/False reads back True/False; with false=None, writing False deletes and a missing node reads False; otherwise a missing node reads None; a present node reads True (False) exactly if its text is the true (false) value, any other text raises.",
  "quantifier": "every engine with standard XPath semantics on simple paths; every document, element and field whose XPath is a buildable simple path (child steps, final attribute or text()); every pair of configured strings and every text"
 },
 "C33": {
  "statement": "Writing a naive datetime (with or without microseconds) in default ISO format and reading it back returns the same datetime, with or without normalize; a trailing Z or six-character offset (+hh:mm) is stripped on read; one to six digits after the point are the fraction of the second; reading never gives a datetime that does not exist.",
  "quantifier": "every engine with standard XPath semantics on simple paths; every document, element and field whose XPath is a buildable simple path (child steps, final attribute or text()); every valid naive datetime"
 },
 "C34": {
  "statement": "Writing a date from the year 1000 on in default format and reading it back returns the same date. (For every earlier date what is written cannot be read.) A date field without a match reads None; an element without text raises TypeError; every date that is read exists.",
  "quantifier": "every engine with standard XPath semantics on simple paths; every document, element and field whose XPath is a buildable simple path (child steps, final attribute or text()); every valid date"
 },
 "C35": {
  "statement": "A field whose XPath evaluates to a non-empty string, a non-zero number or true reports that value: ItemField as it is, StringField the string, IntegerField the number cut to an integer. (Empty string, 0 and false are reported as None.)",
  "quantifier": "every engine, document, XPath and scalar result"
 },
 "C36": {
  "statement": "A StringField reads the concatenated text of the matched element; with normalize=True its words with single blanks between them; normalisation keeps the sequence of words and is idempotent. (Attributes and text() are never normalised.)",
  "quantifier": "every engine with standard XPath semantics on simple paths; every document, element and field whose XPath is a buildable simple path (child steps, final attribute or text()); every text"
 },
 "C37": {
  "statement": "A class's field table contains a name exactly if the class or one of its ancestors (in its chain of XmlObject-created classes) declares a field of that name. A field the class declares itself is the one in its table and the one obj.name uses. In hierarchies in which the name is only ever bound to fields and the bases of each class agree on it or the class redefines it, the table entry is exactly what attribute lookup through the MRO finds.",
  "quantifier": "every sequence of class statements (any single or multiple inheritance accepted by Python, with mixins), every name not starting with create_"
 },
 "C38": {
  "statement": "The namespaces available to an object's XPaths are: its class's ROOT_NAMESPACES, which win; then those of the context dictionary the caller passed; if none was passed, those in scope at the node without the default namespace. The default namespace is only visible if ROOT_NAMESPACES or the caller bind it. What an object sees does not change when other objects are constructed, unless they are given its own dictionary as context; then exactly the prefixes in their ROOT_NAMESPACES are overwritten.",
  "quantifier": "every node namespace map, caller context and ROOT_NAMESPACES, every later sequence of constructions"
 },
 "C39": {
  "statement": "A schema URI that loaded once is never fetched again and always gives the same schema object; a failed load is not remembered: it raises IOError or XMLSchemaParseError with the URI (and base URI) in the message, or the original exception for other failures, and the next request tries again. The base URI is not part of the key.",
  "quantifier": "every sequence of load requests and outcomes"
 },
 "C40": {
  "statement": "In any state of the schema cache and of the shared error logs: without a schema, or with validation switched off, is_valid() is true and validation_errors() is empty; with a schema is_valid() is true exactly if the validator has no errors for this document, and validation_errors() are exactly those errors (nothing accumulates, nothing leaks from other objects); a schema that cannot be loaded raises. After any history of validations of any objects the verdict and errors of an object are unchanged.",
  "quantifier": "every validator, object, state and history of validation calls"
 },
 "C41": {
  "statement": "Two XmlObjects on elements are equal exactly if they serialize to the same bytes (in particular on the same node); == is reflexive, symmetric and transitive wherever it gives an answer, and != is its negation. Objects on two different strings (attribute values, text) are not comparable: TypeError.",
  "quantifier": "every triple of objects, every serializer"
 },
 "C42": {
  "statement": "is_empty() is true exactly for an element with no children (comments and processing instructions count as children), no attributes, no text and no tail; then its string value is empty.",
  "quantifier": "every element"
 },
 "C43": {
  "statement": "Without validate, parsing never validates and does not collect IDs, whatever the class; with validate, the class's schema is used if it has one (the one set on the class, else the one loaded from its URI, through the cache), otherwise DTD validation; a schema that cannot be loaded raises the documented error.",
  "quantifier": "every class configuration, cache state and load outcome"
 },
 "C44": {
  "statement": "Fields are numbered in the order of their declaration over a whole program, also when schema fields are replaced at class creation and when class statements fail in between; the table of a new class lists its fields in the order declared; the default form order of any selection of the fields ever created (e.g. a class with inherited and overridden fields), listed in any order, is their declaration order.",
  "quantifier": "every sequence of class statements with plain and schema fields; every selection and order of the fields (each field under one name)"
 },
 "C45": {
  "statement": "A SchemaField over a type that restricts string (with or without a prefix) becomes a string field with the same XPath, required flag and place; if the type enumerates values, its choices are a blank followed by the enumerated values in document order without their first blank (so a type with at most one blank offers exactly one); otherwise it has no choices. Any other type (another base, no base, more than one colon, no or several elements of that name) is refused with an exception. The schema document is not changed.",
  "quantifier": "every engine with standard XPath semantics, every schema document, type name and field"
 },
 "C46": {
  "statement": "get_type(name) returns an element exactly if it is the only element in the whole schema document (of whatever kind) whose name attribute is that name, and raises Exception otherwise; nothing changes. Without name and xpath it raises.",
  "quantifier": "every schema document and every name for which //*[@name=\"...\"] has its standard meaning (names without double quotes)"
 },
 "C65": {
  "title": "Schema used for schema fields",
  "statement": "In a class with one base, its schema fields are resolved against the schema that attribute lookup gives for XSD_SCHEMA on the finished class (its own, else the inherited one); if there is none, the schema field stays as it is.",
  "quantifier": "every sequence of class statements and every schema loader",
  "why_tests_cant": "hierarchies are unbounded",
  "anchors": [
   "eulxml/xmlmap/core.py:XmlObjectType.__new__",
   "eulxml/xmlmap/fields.py:SchemaField.get_field"
  ]
 },
 "C66": {
  "title": "Self-referential node fields",
  "statement": "After class creation, every node field declared in the class with node_class 'self' or the class's own name refers to the new class; other fields are unchanged. A class statement (without schema fields, with consistent bases) succeeds exactly if all class names given are 'self' or its own name; any other name is refused with ValueError.",
  "quantifier": "every sequence of class statements",
  "why_tests_cant": "all classes and names",
  "anchors": [
   "eulxml/xmlmap/core.py:XmlObjectType.__new__"
  ]
 },
 "C67": {
  "title": "List fields read matches in document order",
  "statement": "A string list field over a simple path has exactly one item per match, in document order: the string value of an element, the value of an attribute, the content of a text node; reading changes nothing.",
  "quantifier": "every engine with standard XPath semantics on simple paths, every document, element, and simple path (any number of steps)",
  "why_tests_cant": "all documents and paths",
  "anchors": [
   "eulxml/xmlmap/fields.py:NodeList.data",
   "eulxml/xmlmap/fields.py:StringMapper.to_python"
  ]
 },
 "C47": {
  "statement": "A dotted name a.b.c selects field c of subform b of subform a: there is a parsed list for a subform exactly if some listed name lies below it; a field is in the parsed list of a (sub)form iff its dotted name was listed, or, when parents are included, a name below it was; without parents the fields come exactly as listed, with parents the order of first mention is kept (a parent listed after one of its fields appears twice: counterexample).",
  "quantifier": "every list of dotted names, any depth"
 },
 "C48": {
  "statement": "A form class has exactly the model fields that are listed (if a list is given) and not excluded, plus the form fields declared in the class; each becomes a form field, subform or formset according to its type; a selected field of an unsupported type means no class is created; in listed order if a list is given, else in order of creation. (A list field with choices becomes a single choice; a parsed field list passed directly makes the exclude argument ignored: counterexamples.)",
  "quantifier": "every model with distinct dot-free field names and distinct creation numbers, every field list, exclude list, declared fields and subforms"
 },
 "C50": {
  "statement": "xmlobject_to_dict gives exactly the values of the object tree (of the top-level fields that fields/exclude let through), each under the key made of the prefix, the field names and list positions on the way to it, joined with '-'; no two distinct values share a key, if names have no '-' (with one, two values can share a key: counterexample).",
  "quantifier": "every object tree whose field names are non-empty, without '-', and distinct in each object; every fields, exclude and prefix argument"
 },
 "C68": {
  "title": "Dotted field lists select in nested forms",
  "statement": "A form with nested subforms and formsets has a field path exactly if the model and its sub-object classes have it and, on every level, either nothing below the level is listed (beyond the top), or the next name is listed or has something listed below it, and no name on the way is excluded; the result does not depend on the recursion limit once the class can be created. A class with a field of its own class admits no form class at all unless that field is left out (counterexample, for every limit).",
  "quantifier": "every family of models, field list, exclude list and path",
  "why_tests_cant": "unbounded nesting, arbitrary models and lists",
  "anchors": [
   "eulxml/forms/xmlobject.py:formfields_for_xmlobject",
   "eulxml/forms/xmlobject.py:xmlobjectform_factory",
   "eulxml/forms/xmlobject.py:XmlObjectFormType"
  ]
 },
 "C49": {
  "title": "update_instance writes the cleaned data and nothing else",
  "statement": "If Meta.fields is missing or a list of names: after update_instance every field that is in Meta.fields (if given; otherwise every field of the model), not excluded, and present in cleaned data, has its cleaned value, where the empty string counts as None; every other attribute has its old value; the assignments happen in the order of Meta.fields, then of the model. If an assignment raises, that error is raised by update_instance, and no further assignment is made.",
  "quantifier": "every model, options, cleaned data, and every implementation of attributes that satisfies set/get laws"
 },
 "C51": {
  "statement": "After update_instance of the formset of a StringListField the field shows exactly the non-empty submitted strings, in form order; of an IntegerListField, the submitted integers except 0; whatever the list was before. Nothing but the list's members changes in the document.",
  "quantifier": "every document, every list field with a child-step path, every list of submitted values"
 },
 "C52": {
  "statement": "For the formset of a list of elements, updating it: if no element marked for deletion has the content that another element of the list gets, the list has then exactly the elements of the initial forms that are not deleted, in order, followed by those of the changed extra forms, each updated by its form (the validation, which update_instance triggers, updates the unchanged ones too). An ordered formset leaves the elements of the forms that are initial or changed, and not deleted, by submitted order (stable, without order last), if the updated contents all differ. A second call changes nothing more if no deleted element's content equals that of a remaining one.",
  "quantifier": "every list of elements and of submitted forms"
 },
 "C53": {
  "statement": "is_valid() is true exactly when the data of the form, its subforms and the members of its formsets are all valid (and the formsets' own checks pass), and no schema error was reported on any of them; then the form's instance has been updated and is schema-valid. Without schema errors it is true exactly when all data are valid. If the form's own data are invalid nothing is touched at all; if any data are invalid the form's own instance is not updated. After a schema error the form stays invalid; each reported schema error list has one message more than there are errors.",
  "quantifier": "every tree of forms, subforms and formsets, every behaviour of documents and schemas"
 },
 "C54": {
  "statement": "Creating a form creates the element of each subform if it is missing; after update_instance the field (single match, path of child steps) is present exactly if the updated element of the subform is not empty, and otherwise only the update of that element changed the document; a further update keeps it absent while it is empty and attaches it when it is not. If the subform's element is no longer the field's match, its data are dropped, and if it is empty the field's match is deleted.",
  "quantifier": "every document, simple field, and every effect of the subform's update that keeps the tag and the path's predicates"
 },
 "C55": {
  "statement": "If no download raises, generate_catalog returns a catalog with exactly one entry (schema URI, local file name) per schema that was saved, in the order of the schemas, and nothing else; schemas that fail with an HTTP error are skipped. The catalog file is written, with that catalog, exactly if there is an entry. If the schemas have different local file names, each saved schema is complete in its file afterwards and no other file has changed. If a download raises, generate_catalog raises without writing the catalog file, and later schemas are not attempted.",
  "quantifier": "every list of schemas, every response of the server for each of them, every initial file system",
  "why_tests_cant": "all patterns of download outcomes and chunkings; two schemas with the same file name overwrite each other (C55_counterexample_same_name)"
 },
 "C56": {
  "statement": "download_schema returns True exactly if the server sent a complete response without HTTP error (and, with a comment, the file could be parsed); the file then holds exactly the response, with the comment if one was given, however it was chunked. It returns False exactly on an HTTP error and then touches no file. Wherever it stops, the file is as before, or holds a prefix of the response, or has the final content, and no other file has changed.",
  "quantifier": "every response, every sequence of chunks, every point at which the process stops",
  "why_tests_cant": "all chunk sequences and crash points"
 },
 "C57": {
  "statement": "If the catalog path (without colon) is not part of XML_CATALOG_FILES, any positive number of imports of the package adds it exactly once as the last of the colon-separated entries and keeps the others in order; if it is an entry already nothing changes; in every case all imports but the first change nothing and the old value stays as a prefix.",
  "quantifier": "every initial value (or none), every path, every number of imports",
  "why_tests_cant": "history of imports and all path strings"
 },
 "C58": {
  "title": "E-mail bodies after conversion",
  "statement": "For a message that is not multipart, from_email_message puts into the body content exactly the payload (a string, decoded bytes, or what str() makes of bytes without a charset) without the control characters below U+0020 other than tab, LF, CR, everything else in order; XML can hold the result unless the payload contains U+FFFE or U+FFFF. A decoding error makes the conversion fail with that error.",
  "quantifier": "every payload string, every header multimap XML can hold, every XPath engine that conforms to XPath 1.0 on simple paths",
  "why_tests_cant": "all strings; the two noncharacters make the assignment raise (C58_counterexample_noncharacter)"
 },
 "C59": {
  "statement": "If XML can hold all strings of a message, from_email_message returns one fixed document: each of from_list, to_list, cc_list, bcc_list, in_reply_to_list, references_list, subject_list, comments_list, keywords_list reads the values of the header of the same name (compared without case) in order, orig_date_list the converted dates, message_id and mime_version the first such header (an empty id leaves none), and headers lists all headers in order. sender_list reads the From headers and local_id is not the given id: see the counterexamples.",
  "quantifier": "every list of headers with repetitions, every body, multipart or not",
  "why_tests_cant": "all header multimaps; a wrong header or variable name shows only when values differ"
 },
 "C60": {
  "title": "TEI line indentation",
  "statement": "TeiLine.indent() is the integer k for rend='indent<k>' (any integer, however large), 0 for rend='indent', None for a rend value that does not start with 'indent', and ValueError when 'indent' is followed by something containing a character that cannot occur in an integer. The document is not changed.",
  "quantifier": "every document and line element, every value of rend, every integer",
  "why_tests_cant": "all strings and integers",
  "anchors": [
   "eulxml/xmlmap/teimap.py:TeiLine.indent"
  ]
 },
 "C61": {
  "title": "EAD series detection",
  "statement": "hasSubseries() is true exactly when there is a first subordinate component (c02-c12 child, in document order) and its level is series or subseries or it has a subordinate component itself; hasSeries() is true exactly when there is a first c01 and its level is series or it has a subordinate component. Only the first component counts; the document is not changed.",
  "quantifier": "every component tree, with any other content between components",
  "why_tests_cant": "all trees",
  "anchors": [
   "eulxml/xmlmap/eadmap.py:SubordinateComponents.hasSeries",
   "eulxml/xmlmap/eadmap.py:Component.hasSubseries"
  ]
 },
 "C62": {
  "title": "EAD short unit title",
  "statement": "Without a unit date child UnitTitle.short is the object itself; otherwise it is a new title with the same name, attributes, leading text and all children except the first unit date, and if no text directly follows that unit date, the text of the short title is the text of the title with the text of the date cut out. The document is unchanged in both cases.",
  "quantifier": "every unit title element in every document",
  "why_tests_cant": "all contents",
  "anchors": [
   "eulxml/xmlmap/eadmap.py:UnitTitle.short"
  ]
 },
 "C63": {
  "title": "MODS emptiness tests",
  "statement": "is_empty is true exactly when: Date: no text at its start (attributes ignored); TypedNote: no children, no text in or behind it, no attribute but type; TitleInfo: title, subtitle, part number, part name, non-sorting part and type unset or empty; PartDetail: number unset or empty; PartExtent: start, end and total unset or empty; Part: all details empty, the first extent (if any) empty, type unset or empty; OriginInfo: all creation and issue dates empty and publisher unset or empty.",
  "quantifier": "every element of the respective kind in every document",
  "why_tests_cant": "all elements",
  "anchors": [
   "eulxml/xmlmap/mods.py:Date.is_empty",
   "eulxml/xmlmap/mods.py:OriginInfo.is_empty",
   "eulxml/xmlmap/mods.py:TypedNote.is_empty",
   "eulxml/xmlmap/mods.py:TitleInfo.is_empty",
   "eulxml/xmlmap/mods.py:PartDetail.is_empty",
   "eulxml/xmlmap/mods.py:PartExtent.is_empty",
   "eulxml/xmlmap/mods.py:Part.is_empty",
   "eulxml/xmlmap/fields.py:NodeList.is_empty"
  ]
 },
 "C64": {
  "title": "PREMIS version",
  "statement": "A Premis object made without a version argument has version 2.1, and apart from that attribute its element is as the other arguments leave it; with a version argument, the arguments are assigned as given and the version is not overridden.",
  "quantifier": "every element or none, every list of keyword arguments",
  "why_tests_cant": "all documents and argument lists",
  "anchors": [
   "eulxml/xmlmap/premis.py:Premis.__init__",
   "eulxml/xmlmap/core.py:XmlObject.__init__"
  ]
 },
 "C69": {
  "title": "An XmlObject behaves like a record of independent values",
  "statement": "Take a class with any number of single-value fields (string, integer, boolean, datetime, date) whose XPaths are simple paths to elements or attributes (attribute predicates only) that pairwise part: after common leading steps they go on to different names, to different attributes, or to steps whose predicates require different texts of the same attribute. On an element in which each step of each path selects at most one node (for example a new, empty one), every finite history of assignments (of values the mapper keeps) and deletions, over all fields and in any order, runs without exception and afterwards every field reads exactly what replaying the history on a plain record gives: the last assigned value; after a deletion or an assignment of None, what a missing node reads; otherwise what it read before. Nothing outside the object's element changes.",
  "quantifier": "all field families, contexts, histories of any length and order, values, documents, positions of the object's element, and XPath engines correct on simple paths",
  "why_tests_cant": "Independence of fields is a statement about all pairs of fields and all histories: creation and deletion of shared parents, predicates that are created on the way, and the clean-up of empty parents after deletions interact only in particular orders. Tests fix a class, a document and a few orders.",
  "anchors": [
   "eulxml/xmlmap/fields.py:SingleNodeManager.get/set/delete",
   "eulxml/xmlmap/fields.py:_create_xml_node,_remove_xml,_remove_predicates",
   "eulxml/xmlmap/fields.py:*Mapper"
  ]
 },
 "C70": {
  "title": "Saving a form writes exactly the submitted data into the document, and reloading shows them",
  "statement": "For a form over an XmlObject whose single-value fields are as in C69, with any Meta.fields / Meta.exclude and any cleaned data that the fields can keep: update_instance() raises nothing and changes nothing outside of the instance's element; afterwards reading each field that the form assigns to gives the submitted value (None for an empty string), and every other field reads what it read before. The initial data of a form made from the saved instance (xmlobject_to_dict) hold, for every assigned field, the submitted value.",
  "quantifier": "all classes, field lists, exclude lists, cleaned data, documents, positions of the instance's element, and XPath engines correct on simple paths",
  "why_tests_cant": "It composes the selection and order of assignments in the form with the creation, overwriting and clean-up of nodes by each of them, for arbitrary documents and data; tests look at single forms and fixtures.",
  "anchors": [
   "eulxml/forms/xmlobject.py:XmlObjectForm.update_instance,xmlobject_to_dict",
   "eulxml/xmlmap/fields.py:SingleNodeManager.set"
  ]
 },
 "C71": {
  "title": "An object for an element with text and attributes behaves like a record",
  "statement": "Let every field of an XmlObject select the text() of its element or an attribute of it, no two fields the same one, and let the element have no child elements. Then any sequence of assignments and deletions runs without exception, changes nothing outside the element and neither its name, its tail nor its (empty) list of children, and afterwards each field reads what was last assigned to it, or what it read at the start if it was never touched; a deleted attribute field reads None, and a deleted text that existed reads as the empty string.",
  "quantifier": "all sets of fields, histories of assignments and deletions, documents, positions of the object's element, and XPath engines correct on simple paths",
  "why_tests_cant": "It must hold for histories of any length that interleave the fields in any order; tests assign one or two fields on one fixture.",
  "anchors": [
   "eulxml/xmlmap/fields.py:SingleNodeManager,_remove_xml,_set_in_xml",
   "eulxml/xmlmap/mods.py:Note,Identifier,AccessCondition"
  ]
 },
 "C72": {
  "title": "The bundled classes behave like records",
  "statement": "For every XmlObject class that comes with eulxml (Dublin Core, PREMIS, MODS, CERP, EAD, TEI) and any choice of its single-value fields for child elements and attributes without one of six listed interfering pairs (mods.Role type/authority with text, cerp message_id with message_id_supplied, TeiDiv author with docauthor): on an object of the class whose context declares at least the class's prefixes, any sequence of assignments and deletions runs without exception, changes nothing outside the object's element, and afterwards each field reads the value last assigned to it. A new object of the class meets the conditions. The same holds for the classes with a text() field (mods.Note, Identifier, NamePart, dates, ...).",
  "quantifier": "all bundled classes, choices of fields, contexts that extend ROOT_NAMESPACES, histories, documents, positions, and XPath engines correct on simple paths",
  "why_tests_cant": "The fixtures of the test-suite exercise a few assignments per class; the claim is about all histories on all documents, and about there being no interfering pair besides the listed ones.",
  "anchors": [
   "eulxml/xmlmap/dc.py:DublinCore",
   "eulxml/xmlmap/premis.py:Event,Object",
   "eulxml/xmlmap/mods.py",
   "eulxml/xmlmap/cerp.py",
   "eulxml/xmlmap/eadmap.py",
   "eulxml/xmlmap/teimap.py",
   "eulxml/xmlmap/fields.py:SingleNodeManager"
  ]
 },
 "C73": {
  "title": "Keyword arguments of the constructor are what the new object reads",
  "statement": "XmlObject(**kwargs) without a node, for fields as in C69 and values that the fields keep: construction raises nothing, every field given as keyword reads the value given, every other field reads what its mapper makes of a missing node (None), and the order of the keywords does not matter for what is read. In particular for every bundled class (C72).",
  "quantifier": "all classes with non-interfering fields, all sets of keywords, values that the mappers keep, orders of the keywords",
  "why_tests_cant": "Each keyword triggers creation of nodes that share ancestors with those of other keywords; correctness for every subset and every order of keywords is an induction, not a finite set of examples.",
  "anchors": [
   "eulxml/xmlmap/core.py:XmlObject.__init__,_build_root_element"
  ]
 },
 "C74": {
  "title": "Single-value and list fields side by side behave like a record with Python lists",
  "statement": "For an XmlObject with single-value fields as in C69 and list fields of the kinds of C25 (one child step, attribute predicates) whose paths part pairwise: after every history of assignments to and deletions of single-value fields, Python list operations (failing ones included), list assignments and list deletions, each field reads what the same history leaves in a record with Python lists, each operation gives back or raises what the Python list gives back or raises, and nothing outside the object's element changed.",
  "quantifier": "all families of non-interfering single-value and list fields, all histories of operations, all starting elements with at most one match per single-value field",
  "why_tests_cant": "Interleavings of list insertions, removals and of the creation and clean-up of single-value nodes are unbounded; interference shows only in particular orders.",
  "anchors": [
   "eulxml/xmlmap/fields.py:NodeList,NodeListManager,SingleNodeManager,_create_xml_node,_remove_xml"
  ]
 },
 "C75": {
  "title": "A string that XML cannot carry is refused",
  "statement": "Assigning to a field, or to an item of a list field that is stored as text, a string with a character that no XML document can contain (control characters other than tab, newline, carriage return; U+FFFE, U+FFFF) never succeeds, whatever the XPath. Where the empty string could be assigned the exception is ValueError. The document is unchanged if there was a match; otherwise it is the one that create_<field>() leaves (an empty node that was created before the value was refused).",
  "quantifier": "all XPaths, documents, XPath engines, strings with a forbidden character, list indices",
  "why_tests_cant": "The value passes three different setters (element text, attribute, text node) after arbitrary creation of ancestors; that none of them lets it through and what is left behind has to hold for all paths and documents.",
  "anchors": [
   "eulxml/xmlmap/fields.py:_set_in_xml,SingleNodeManager.set,NodeList.__setitem__"
  ]
 },
 "C76": {
  "title": "A single-value field and a list field with the same XPath are views of the same data",
  "statement": "When a class declares a string (or integer) field and a list field of the same kind with the same XPath (as Dublin Core does with title and title_list), the single-value field always reads the first item of the list, and the empty value when the list is empty; assigning to the single-value field does what assigning to item 0 does (appending when the list is empty), deleting it removes item 0, and every history that mixes both fields gives the results of the same history on one Python list.",
  "quantifier": "every XPath and engine for the reads and for assignment; every covered XPath, document, value and every finite history of operations on both fields, failing ones included, for the rest",
  "why_tests_cant": "the two fields are implemented by different code (SingleNodeManager and NodeList) and agree only if they pick the same node in every document and after every history",
  "anchors": [
   "eulxml/xmlmap/fields.py: SingleNodeManager, NodeListManager, NodeList.__setitem__, NodeList.__delitem__",
   "eulxml/xmlmap/dc.py: DublinCore"
  ]
 },
 "C77": {
  "title": "Bundled classes with list fields behave like records with Python lists",
  "statement": "For every class with list fields that comes with eulxml (Dublin Core, MODS, PREMIS, CERP, EAD, TEI), any selection of its single-value and list fields without interfering pairs behaves, under every history of assignments, deletions and list operations (through single-value fields sharing the XPath of a list as well), like a record whose attributes are values and Python lists: same results, same errors, same reads afterwards; nothing outside the object's element changes.",
  "quantifier": "every bundled class with list fields, every selection, every context that declares at least the class's prefixes, every document with room for the fields, every finite history",
  "why_tests_cant": "histories, documents and selections are unbounded; the interference of two fields shows only in particular combinations",
  "anchors": [
   "eulxml/xmlmap/dc.py: DublinCore",
   "eulxml/xmlmap/mods.py",
   "eulxml/xmlmap/premis.py",
   "eulxml/xmlmap/cerp.py",
   "eulxml/xmlmap/eadmap.py",
   "eulxml/xmlmap/teimap.py",
   "eulxml/xmlmap/fields.py: NodeList, SingleNodeManager"
  ]
 },
 "C78": {
  "title": "parse in several threads is correct if calls do not overlap",
  "statement": "All calls of eulxml.xpath.parse in a process share one lexer object. In every schedule of threads, a call between whose start and end no other thread takes a token returns what the call returns alone in the lexer state at its start, terminates within one step per character plus one, leaves the lexer as a call alone does, and changes no other thread's call. With a lock around parse, in every schedule, each call therefore returns what it returns after the same calls in one thread. (Overlapping calls may exchange their inputs: parse('a') can return the expression b.)",
  "quantifier": "all schedules of any number of threads, all argument strings, all lexer states",
  "why_tests_cant": "schedules are unbounded, and the interleavings that go wrong are rare",
  "anchors": [
   "eulxml/xpath/core.py: LexerWrapper.token, LexerWrapper.peek, lexer, parse"
  ]
 },
 "C79": {
  "title": "Syntax errors are reported at the first token that cannot continue an expression",
  "statement": "When parse raises RuntimeError at a token, some XPath expression begins with the tokens before it and none begins with those and the token; when it raises RuntimeError at the end of the input, the input is the beginning of some expression but not an expression; when it raises TypeError (unknown text), some expression begins with the tokens before that text. There are no other outcomes besides success.",
  "quantifier": "all strings, all lexer states",
  "why_tests_cant": "'no expression begins with' quantifies over all continuations",
  "anchors": [
   "eulxml/xpath/parserules.py: p_error",
   "eulxml/xpath/lexrules.py: t_error",
   "eulxml/xpath/core.py: parse"
  ]
 },
 "C80": {
  "title": "Date and datetime fields with a user-given format read back what the format shows",
  "statement": "For a DateTimeField declared with a format made of the numeric directives %Y %y %m %d %H %M %S %f %%, white space and literal characters, no directive twice, whose texts have at least six characters, do not end in Z and have no sign six characters before the end (the time zone heuristics): every real datetime (years 1000-9999 for %Y, 1969-2068 for %y) that is assigned reads back as the parts named by the format, with 1900-01-01 00:00:00 for the others, or, when those parts are no real date, reading raises ValueError. A format naming every part gives back the same datetime. With normalize=True the same holds when the white space of the format is single inner blanks. A DateField whose format names year, month and day gives back the date. Whatever the text in the document, a value that is read is a real date and time. With normalize=True only the words of an element's text count. No match reads None; a DateField on an element without text raises TypeError.",
  "quantifier": "all such formats, all real dates/times, all fields on child/attribute/text() paths, all documents",
  "why_tests_cant": "formats and dates are unbounded families; a format or date that collides with the time zone heuristics is easily missed",
  "anchors": [
   "eulxml/xmlmap/fields.py: DateTimeMapper.to_python, DateTimeMapper.to_xml, DateMapper.to_python, DateMapper.to_xml, DateTimeField, DateField"
  ]
 },
 "C81": {
  "title": "Typed fields write the texts their documentation promises",
  "statement": "Assigning to a typed field stores, in the first match of its path, exactly: for an IntegerField the decimal notation of the number (a minus sign only for negatives, no leading zeros); for a DateTimeField without format the ISO text YYYY-MM-DDThh:mm:ss, followed by a point and six digits when the microseconds are not zero; for a DateField without format YYYY-MM-DD (years from 1000); with a format of numeric directives, white space and literals, the text that the format describes, directive by directive; for a SimpleBooleanField the declared text for true or for false.",
  "quantifier": "all integers, real dates and times, formats of numeric directives, boolean texts, all writable fields on simple paths and all documents",
  "why_tests_cant": "values, formats and documents are unbounded families; a reader that undoes a wrong writer hides errors in the text that other software sees",
  "anchors": [
   "eulxml/xmlmap/fields.py: Mapper.to_xml, IntegerMapper, DateTimeMapper.to_xml, DateMapper.to_xml, SimpleBooleanMapper.to_xml"
  ]
 },
 "C82": {
  "title": "Float fields",
  "statement": "Assigning a float (not NaN, not -0.0) to a FloatField stores str(x) in the first match. In an attribute or text() it reads back as the same float; in an element it reads as what XPath number() makes of that text. On any document: no match reads None, an element reads as a float (possibly NaN), an attribute or text as what float() finds or None; nothing raises or changes. A FloatField whose XPath yields a number, such as count(a), raises TypeError (counterexample).",
  "quantifier": "all floats with float(str(x)) == x, all simple paths, all documents, all implementations of float(), str() and number() with that property",
  "why_tests_cant": "floats and documents are unbounded families; texts that are no number, and the difference between float() and number(), are easily missed",
  "anchors": [
   "eulxml/xmlmap/fields.py: FloatMapper, FloatField"
  ]
 },
 "C83": {
  "title": "List fields with several steps behave like Python lists, except for insertions in front of the end",
  "statement": "For a list field with the XPath p/q[..] whose parent path p selects at most one element: any sequence of list operations without insertion in front of the end gives the results and errors of the same sequence on the Python list of the items, and the field then shows Python's list; assigning a list makes the field show it; deleting removes all members and keeps the parent; append puts the new member at the end of the parent (not necessarily next to the other members) and creates the parent path if it is missing; failing operations change nothing; nothing but the members (and a missing parent path) ever changes. insert(i, x) with i < len is broken there: it overwrites item i and adds an empty member (counterexample).",
  "quantifier": "all documents, all paths of two or more child steps with at most one match of the parent path, all kinds of list fields of C25, all operation sequences of any length with storable values and no insertion in front of the end",
  "why_tests_cant": "arbitrary operation histories over arbitrary documents, with the parent present or missing",
  "anchors": [
   "eulxml/xmlmap/fields.py: NodeList, NodeListManager, _create_xml_node"
  ]
 },
 "C84": {
  "title": "Objects in objects behave like nested records",
  "statement": "Let a class have scalar fields and NodeFields, whose classes again have scalar fields and NodeFields, at any depth, where in each class the paths of the fields part from each other, and let each of these paths select at most one node. Then every history of obj.x.y.field = v, del obj.x.y.field, obj.x.create_y() and del obj.x.y, at any depth, acts on the object like on a nested record: with an object missing on the way AttributeError is raised and nothing changes; otherwise the operation succeeds and changes just that field; creating makes the object there, without fields if it was not there, and unchanged if it was; deleting removes the object and everything in it, and nothing else. Reading obj.x.y.field shows the record (AttributeError if an object is missing), and a NodeField reads None exactly if the object is not there. Everything outside of the element, and every field whose path parts from these, stays. Reading with instantiate_on_get is creating, then reading.",
  "quantifier": "all nests of classes with simple paths with attribute predicates, of any depth and size; all documents where the paths select at most one node each; all histories of any length with storable values",
  "why_tests_cant": "arbitrary class nests and operation histories",
  "anchors": [
   "eulxml/xmlmap/fields.py: NodeManager, SingleNodeManager, NodeMapper, NodeField, _create_xml_node, _remove_xml",
   "eulxml/xmlmap/core.py: XmlObjectType.__new__, _FieldDescriptor, XmlObject"
  ]
 },
 "C85": {
  "title": "A form with subforms, at any depth, saves exactly what was submitted",
  "statement": "Let a form have fields and subforms for NodeFields, whose forms may have subforms again, at any depth, where in each class the paths of fields and NodeFields part from each other and select at most one node each. If the form is made for an object and then updates its instance, it succeeds, and in the instance and in every object of a subform: each field that the form has (by Meta.fields and Meta.exclude) and that is in cleaned_data reads the submitted value, and None for the empty string; every other field, and everything else whose path parts from these, is as before. A subform has been saved to the object that its NodeField read, or to a new one; this object is what the NodeField reads now, unless its element is empty: then the NodeField reads None. In particular a NodeField that read None still reads None if only empty values were submitted for its subform and all subforms in it. Outside of the element of the instance nothing changes. Updating again, as save() after is_valid(), changes nothing. is_valid() does not fail; if it is True, the data of all the forms are valid, the document is valid, and everything has been saved; if the data of all the forms are valid and there are no schemas, it is True; if the data of one of the forms are not valid, it is False, and the fields of the form's own instance are unchanged.",
  "quantifier": "all trees of forms of any depth and width over classes with simple paths with attribute predicates; all documents in which the paths select at most one node each; all storable submitted data",
  "why_tests_cant": "arbitrary form trees, documents and data",
  "anchors": [
   "eulxml/forms/xmlobject.py: XmlObjectForm.__init__, _init_subforms, update_instance, _update_subinstance, is_valid, is_empty",
   "eulxml/xmlmap/fields.py: SingleNodeManager",
   "eulxml/xmlmap/core.py: XmlObject.is_empty"
  ]
 },
 "C86": {
  "title": "No two inputs of a form have the same name",
  "statement": "The inputs of a form, with its subforms and formsets at any depth, are named by the way to them: names of subforms, names of formsets followed by the number of the form (or by one of Django's four management names), and last the name of the field, joined with '-' and behind the form's prefix if it has one. No two of these names are the same, so that the data a browser sends for the page has for each field the value entered in its own input.",
  "quantifier": "all forms with subforms and formsets of any number and depth whose names are Python names (no '-', not beginning with a digit) that are different within each form, all prefixes (none, empty, or any text), all entered values",
  "why_tests_cant": "tests look at the names in a few forms; here they must differ for every nesting, every number of forms and every prefix",
  "anchors": [
   "eulxml/forms/xmlobject.py:XmlObjectForm._init_subforms",
   "eulxml/forms/xmlobject.py:XmlObjectForm._init_formsets"
  ]
 },
 "C87": {
  "title": "A page shows every form of a form tree once, in its own section",
  "statement": "as_table, as_p and as_ul give the HTML of the form's own fields, then for each subform (in order) a section with its label and the HTML of the subform, then for each formset its management form and a section with its label and the HTML of all its forms; the pieces appear each exactly once and in this order, at any depth, and together they have exactly the inputs of C86. If the HTML that Django makes for the fields of each form is balanced, so is the whole page. There is a page exactly if each subform has a label and each formset has at least one form.",
  "quantifier": "all forms with subforms and formsets of any number and depth, all prefixes, all ways in which Django may show fields and labels",
  "why_tests_cant": "tests look for some texts in the output of a few forms; here nothing may be lost, doubled or left open for any nesting and any HTML of the fields",
  "anchors": [
   "eulxml/forms/xmlobject.py:XmlObjectForm._html_output",
   "eulxml/forms/xmlobject.py:XmlObjectForm._html_subform_output",
   "eulxml/forms/xmlobject.py:XmlObjectForm.as_table",
   "eulxml/forms/xmlobject.py:XmlObjectForm.as_p",
   "eulxml/forms/xmlobject.py:XmlObjectForm.as_ul"
  ]
 },
 "C88": {
  "title": "Formsets of elements on the document",
  "statement": "A bound formset for a NodeListField whose XPath is one child step with attribute predicates, with one form per member (and possibly more): after update_instance the members of the list are those whose forms are not marked for deletion, in order, each as updated by its form, followed by one new element for each changed additional form, and everything else in the parent element - other children, attributes, texts - is as it was. With can_order the members are the updated elements of the forms that count, sorted by the submitted order (stable, without order last). Updating again, as by is_valid() and then update_instance(), leaves the members as they are. Conditions: no element to be deleted is like another member as submitted; with order, all these elements differ; for the second update, no remaining element is like a deleted one.",
  "quantifier": "every document and position of the list in it, every list, all submitted data, deletions and orders, every effect of the forms on their elements that is idempotent and keeps them members",
  "why_tests_cant": "elements are found again by equality and by position while others are removed, moved and added",
  "anchors": [
   "eulxml/forms/xmlobject.py:BaseXmlObjectFormSet.update_instance",
   "eulxml/forms/xmlobject.py:BaseXmlObjectFormSet._construct_form",
   "eulxml/xmlmap/fields.py:NodeList"
  ]
 },
 "C89": {
  "title": "A formset saves each of its forms into its own element",
  "statement": "For a formset of a NodeListField as in C88 whose forms have one class (fields as in C69), updating the formset saves the data of form i into the element of form i, exactly as a form on its own would (C70/C85): every assigned field reads the submitted value, every other field and everything else in the element is as before, and nothing of the data of another form gets into it; the list has then these elements, as said in C88 (deleted, kept in order or by the submitted order, and new ones at the end).",
  "quantifier": "every document and list, every class of simple fields, all submitted data, deletions and orders",
  "why_tests_cant": "which form writes into which element depends on positions that change while elements are removed, moved and added, and on the submitted data",
  "anchors": [
   "eulxml/forms/xmlobject.py:BaseXmlObjectFormSet.update_instance",
   "eulxml/forms/xmlobject.py:XmlObjectForm.update_instance",
   "eulxml/xmlmap/fields.py:NodeList"
  ]
 },
 "C90": {
  "title": "A form with subforms and formsets saves everything that was submitted, and nothing else",
  "statement": "A bound XmlObjectForm with subforms at any depth and formsets (of elements and of values) is made for an object, and update_instance is called: then every field the form assigns to reads the submitted value, every other one what it read before; the subforms are saved as in C85, each formset of elements as in C89, each formset of values shows the non-empty values in order; nothing else in the object or outside it has changed. is_valid() does the same if Django finds everything valid, and is then True if the schemas agree; the update_instance() that views call after it changes neither fields nor subforms, nor lists of values, nor lists of elements in which no remaining element is like one that was to be deleted. If Django finds something invalid, is_valid() is False and no field of the form's own object has changed.",
  "quantifier": "every document, every tree of subforms and list of formsets whose paths have nothing to do with each other, all submitted data",
  "why_tests_cant": "fields, subforms and formsets write into the same document one after the other, and each finds its elements by XPath in what the others have left",
  "anchors": [
   "eulxml/forms/xmlobject.py:XmlObjectForm.__init__",
   "eulxml/forms/xmlobject.py:XmlObjectForm.update_instance",
   "eulxml/forms/xmlobject.py:XmlObjectForm.is_valid",
   "eulxml/forms/xmlobject.py:BaseXmlObjectFormSet",
   "eulxml/forms/xmlobject.py:BaseXmlObjectListFieldFormSet"
  ]
 },
 "C91": {
  "title": "Options of form classes: what is given counts, the rest is inherited or has its default, and formsets use the options of the class of their forms",
  "statement": "xmlobjectform_factory makes a form class whose model, fields, exclude, widgets, max_num, extra, can_delete and can_order are those given (not None), and else those of the form class it is made from. A class statement has the options of its inner class Meta, or of the first base class that has one; a missing option means no list, no widgets, no maximum, one extra form, deletion allowed, no ordering. Formsets of elements have max_num, can_delete, extra and can_order of the class of their forms (for a generated class: none, True, 1, False); formsets for lists of strings or integers have neither deletion nor ordering. None of labels, widgets and formset options changes which fields, subforms and formsets a form has (C48, C68).",
  "quantifier": "every model with any nesting, every Meta, base classes, declarations, and arguments of the factory",
  "why_tests_cant": "options meet on three ways (arguments, Meta, base classes) at every level of nested forms; tests try a few combinations",
  "anchors": [
   "eulxml/forms/xmlobject.py:SubformAwareModelFormOptions",
   "eulxml/forms/xmlobject.py:formfields_for_xmlobject",
   "eulxml/forms/xmlobject.py:XmlObjectFormType.__new__",
   "eulxml/forms/xmlobject.py:xmlobjectform_factory"
  ]
 },
 "C92": {
  "title": "Every field, subform and formset has its label, help text and widget",
  "statement": "A generated form field has the verbose_name of the xmlmap field as label, or else one made from its name (the words between underscores, with capital letters first, blanks between them), its help text, and the widget that the option widgets has for its name; subforms get the widgets listed under theirs. A subform is shown with the label of its form class, else the declared one, else the verbose_name, else one made from the name, so it always has one; a formset with the label of the class of its forms, else the verbose_name, else one made from the name. Making a label of a label that was made from a name changes nothing.",
  "quantifier": "every model, Meta, declarations; all names",
  "why_tests_cant": "labels come from four places with an order of precedence, and names are arbitrary",
  "anchors": [
   "eulxml/forms/xmlobject.py:fieldname_to_label",
   "eulxml/forms/xmlobject.py:formfields_for_xmlobject",
   "eulxml/forms/xmlobject.py:XmlObjectForm._init_subforms",
   "eulxml/forms/xmlobject.py:XmlObjectForm._html_output"
  ]
 },
 "C93": {
  "title": "Declared fields and subforms of form classes, and inheritance",
  "statement": "The declared fields of a form class are its own and those of its base classes (of several, the last that declares it), unless it declares a subform of that name; they are fields of the form, whatever fields and exclude say. A subform or formset uses the form class declared for it in the class statement, and else a generated one with the parts of fields, exclude and widgets below its name. A subclass with nothing of its own is the same form class, if the base class declares no subforms.",
  "quantifier": "every model, class statement and list of base classes",
  "why_tests_cant": "holds for every hierarchy of form classes",
  "anchors": [
   "eulxml/forms/xmlobject.py:XmlObjectFormType.__new__",
   "eulxml/forms/xmlobject.py:SubformField"
  ]
 },
 "C94": {
  "title": "A form that is shown, edited in a browser and sent back changes what was edited and nothing else",
  "statement": "A form for an object (with subforms at any depth) is shown; the user changes some inputs; the browser sends all of them; the form is made again with these data for the same object and saved. Then this raises no exception, and the form is valid exactly when each input is acceptable to its form field (and the schema accepts the result). Each field with an input then reads the cleaned value of what the input has sent (None instead of the empty string); fields without an input, and everything else in the document, read as before; likewise for subforms, whose objects are gone if they are empty. If an input is not valid, no field of the form's own object changes. If nobody touches anything and the form fields give back what they show (single-line texts without surrounding white space, numbers, dates from the year 1000 on, flags that are there, listed choices), the form is valid and the object and all objects below read the same; those that were not there are not created.",
  "quantifier": "every form class with subforms at any depth, every document, every prefix, every set of edits, every version of Django's stripping and parsing",
  "why_tests_cant": "the browser sends all inputs, not only the edited ones, so each unedited field must survive the way through text and back; tests post hand-made data, and never the data of a page that was shown",
  "anchors": [
   "eulxml/forms/xmlobject.py:XmlObjectForm.__init__",
   "eulxml/forms/xmlobject.py:xmlobject_to_dict",
   "eulxml/forms/xmlobject.py:XmlObjectForm.update_instance",
   "eulxml/forms/xmlobject.py:XmlObjectForm.is_valid",
   "eulxml/forms/xmlobject.py:formfields_for_xmlobject"
  ]
 },
 "C95": {
  "title": "A loop over a list field goes over the items the list had when it started",
  "statement": "for x in obj.field: body — where the body appends, inserts, removes, deletes, pops, searches and reads the same list in any way, stops early or raises — hands out the items the list had when the loop started, each once and in order, and ends with the list, results and exceptions a loop over a copy of the Python list has; nothing but the members changes. Hence removing each item in the loop empties the list, appending in the loop ends, and obj.field.extend(obj.field) doubles the list. If the body assigns to items (string and integer lists) and neither adds nor removes, the loop is the one over the Python list itself: an item assigned before its turn has its new value; replacing each item replaces all.",
  "quantifier": "every list field of C25, every document, every loop body (a program of list operations whose next operation depends on the results so far), every state kept by the body",
  "why_tests_cant": "bodies, and the interleaving of the iteration with the changes they make, are unbounded; the tests never change a list while looping over it",
  "anchors": [
   "eulxml/xmlmap/fields.py:NodeList.__iter__",
   "eulxml/xmlmap/fields.py:NodeList.data",
   "eulxml/xmlmap/fields.py:NodeList.extend",
   "eulxml/xmlmap/fields.py:NodeListManager.delete"
  ]
 },
 "C96": {
  "title": "A list field can be given the items of another object's list field",
  "statement": "obj.field = other.field for lists of strings, numbers and dates gives obj.field the items other.field has, and leaves other as it is. For lists of elements, obj.field = list(other.field) and obj.field.extend(other.field) move the elements, in their order: obj has them (extend: behind its own ones), other has none of them, and nothing else changes in either document. obj.field = obj.field leaves the list as it is (for elements: the whole document). Assigning the live list of elements, obj.field = other.field, does not do this: with one element it is lost together with obj's own ones, with more an IndexError is raised after every second element has been moved.",
  "quantifier": "every pair of list fields of C25 on elements of two documents, every number of items on both sides",
  "why_tests_cant": "the outcome depends on the lengths of both lists, as the source shrinks while it is read; the tests assign Python lists only",
  "anchors": [
   "eulxml/xmlmap/fields.py:NodeListManager.set",
   "eulxml/xmlmap/fields.py:NodeList.extend",
   "eulxml/xmlmap/fields.py:NodeList.__setitem__"
  ]
 },
 "C97": {
  "title": "Fields for the object's own element, and str() and repr() of objects",
  "statement": "A field with XPath '.' reads the whole text of the object's element (normalised if asked for). If the element has no children, assigning a value replaces its text and nothing else, and the value is read back; with children, or with a text XML cannot hold, the assignment raises and changes nothing. Deleting the field or assigning None changes nothing: the text stays. In any history over such a field and fields for attributes the object behaves like a record in which the text is never removed. str(obj) is the text of the element with normalised white space; str() of headings, containers and dates of EAD is their text; str() of CERP parameters and headers and repr() of CERP headers, hashes, folders and accounts always are strings. str() of an EAD Reference always raises TypeError, str() of a CERP hash without value and of a MODS date without text does too, and obj.value = obj.value with a NodeField('.') empties the element.",
  "quantifier": "every element and document, every text mapper, every history of assignments and deletions",
  "why_tests_cant": "reading, refusing and replacing depend on the element's contents and on earlier operations; the tests read single fixtures",
  "anchors": [
   "eulxml/xmlmap/fields.py:SingleNodeManager",
   "eulxml/xmlmap/core.py:XmlObject.__str__",
   "eulxml/xmlmap/eadmap.py:Unitid",
   "eulxml/xmlmap/eadmap.py:Reference",
   "eulxml/xmlmap/cerp.py:Account.__repr__",
   "eulxml/xmlmap/mods.py:Date.__str__"
  ]
 },
 "C98": {
  "title": "XSL transformations see the object's element and nothing else",
  "statement": "xsl_transform with a stylesheet given as file or string runs that stylesheet on the object's element alone, wherever it is in its document and without the text behind it; if both are given the string counts. String parameters reach the stylesheet as strings. The result is an object of the wanted class for the root element of the result, None if there is none, or the text of the result if str is wanted. A stylesheet compiled by load_xslt gives the same for elements without text behind them, raises the same exceptions when it cannot be loaded, and is used without looking at a file. Not guaranteed: an element followed by text that is not white space cannot be transformed (XMLSyntaxError), an unreadable file raises even if a string is given, and a call without stylesheet raises UnboundLocalError.",
  "quantifier": "every document, element, stylesheet, parameter dictionary and result; every behaviour of the XSLT processor",
  "why_tests_cant": "the tests transform two fixtures; position in the document, surrounding text and parameters are unbounded",
  "anchors": [
   "eulxml/xmlmap/core.py:XmlObject.xsl_transform",
   "eulxml/xmlmap/core.py:load_xslt"
  ]
 },
 "C99": {
  "title": "The DCMI type vocabulary is loaded once",
  "statement": "On a Dublin Core object every access to dcmi_types gives the labels of the things that the downloaded vocabulary declares to be classes defined by the DCMI type vocabulary, and dcmi_types_graph the downloaded graph, in any order and number of accesses, with exactly one download, provided that the first download works and labels exist; there never is a second download. If the first access to dcmi_types fails, it raises, but all later ones silently give an empty list.",
  "quantifier": "every history of accesses, every graph, every outcome of the download",
  "why_tests_cant": "the tests access the list once with a working download; failures and histories are unbounded",
  "anchors": [
   "eulxml/xmlmap/dc.py:DublinCore.dcmi_types",
   "eulxml/xmlmap/dc.py:DublinCore.dcmi_types_graph"
  ]
 },
 "C100": {
  "title": "List fields over several parents",
  "statement": "A list field whose XPath has several child steps p/q, on a document where p selects one or more elements, shows the items of all these parents, one parent after the other. Reading, setting, deleting, popping and removing items work as on the Python list of all items, in any sequence, with the same results and errors, and an operation that fails changes nothing. New items (append, extend, assignment or insertion at the end) go to the end of the first parent, wherever the list ends. Assigning at most as many values as there are items makes the field show exactly these; of a longer list the surplus is shown behind the items of the first parent. Deleting the field removes all members. Only members change: parents stay, none is created or removed. Not guaranteed: an appended item is not the last one if a later parent has items, and a longer list assigned is then shown in another order.",
  "quantifier": "every document with at least one parent, every number of parents and members, every field of the covered kinds, every sequence of operations without insertion in front of the end",
  "why_tests_cant": "the tests use lists with one parent; the distribution of items over parents and the sequence of operations are unbounded",
  "anchors": [
   "eulxml/xmlmap/fields.py:NodeList",
   "eulxml/xmlmap/fields.py:NodeListManager",
   "eulxml/xmlmap/fields.py:_create_xml_node"
  ]
 },
 "C101": {
  "title": "The formset of a list field survives the way through the browser",
  "statement": "Showing the formset of a StringListField or IntegerListField gives one input per item (text without line breaks), one empty input more (unless the list has 1000 items or more), and the four counts, and does not change the document. Whatever data come back, and whatever the list holds by then: if the counts are there and the number of forms is not too large (and, for integers, every text is empty or a number), then after saving the list holds exactly the texts (stripped) or numbers sent for the forms 0..TOTAL_FORMS-1, in order, without empty texts and zeros, and nothing but members of the list has changed; otherwise the formset is not valid and the document does not change. In particular a page that comes back as it was shown leaves the list with the items that it showed, apart from empty ones and zeros, if the strings are single lines that need no stripping.",
  "quantifier": "all list fields with one child step with attribute predicates, all documents, all lists (of any length), all edits, all POST data, all Django configurations that read numbers as they are shown; the document at the time of saving may differ from the one shown",
  "why_tests_cant": "ranges over all lists, edits, POST data and documents, including those changed between showing and saving; the number of forms is unbounded",
  "anchors": [
   "eulxml/forms/xmlobject.py: ListFieldForm, IntegerListFieldForm, BaseXmlObjectListFieldFormSet.initial_form_count, _construct_form, update_instance",
   "eulxml/forms/xmlobject.py: XmlObjectForm._init_formsets",
   "eulxml/forms/xmlobject.py: formfields_for_xmlobject (formset_factory)"
  ]
 },
 "C102": {
  "title": "The formset of a NodeListField survives the way through the browser",
  "statement": "Showing the formset of a NodeListField gives the four counts and, for each member and for the additional forms, an input per form field with what the field of that member reads (nothing for a new one), the position if the forms can be ordered and an unticked box if they can be deleted. When data come back for as many initial forms as the list has members: each form updates its element (or a new one) so that every field with a valid input reads what has been sent and every other field, and everything else in the element, is as before; an additional form that was left as it was changes nothing. If a form not marked for deletion is not valid, by its inputs or by the schema, the set is not valid; otherwise the members of the list are those not marked for deletion, followed by one new element per changed additional form (or all of them by the submitted order), and nothing else in the document changes. In particular a page that comes back as it was shown leaves the same members, each reading the same, and adds none. Without counts, or with too many forms, the set is not valid.",
  "quantifier": "all list fields with one child step with attribute predicates, all documents and members, all form classes without subforms over simple fields, all edits and POST data, all Django configurations that read numbers and dates as they are shown, all settings of can_delete, can_order, extra and max_num",
  "why_tests_cant": "ranges over all lists, form classes, documents, edits and POST data; the number of forms is unbounded",
  "anchors": [
   "eulxml/forms/xmlobject.py: BaseXmlObjectFormSet, formfields_for_xmlobject, XmlObjectForm.__init__, XmlObjectForm.is_valid, XmlObjectForm.update_instance"
  ]
 },
 "C103": {
  "title": "A whole form with subforms and formsets survives the round trip through a browser",
  "statement": "A form for an object, with subforms at any depth and formsets for its NodeListFields, StringListFields and IntegerListFields, is shown as a page on which all inputs have different names. When the page is sent back and a form is made with the data, is_valid() is true exactly if (up to schemas) every value sent for a field, a subform and a form of a formset is valid; then each own field reads the cleaned value sent for it, subforms hold what was sent for them, each list holds what was sent for it (objects kept, changed, deleted, added and ordered as sent; strings and integers without the empty ones), and whatever else there is in the document reads as before. If it is not valid the own fields and unrelated content read as before. If nobody touches the page, submitting it changes nothing that can be read, except that empty strings, zeros in lists of integers and empty subform objects may go.",
  "quantifier": "all forms with subforms at any depth and formsets of the root form, all documents that fit, all prefixes, all data (also arbitrary data for the fields), all Django environments",
  "why_tests_cant": "the claim ranges over all forms, documents and submitted data, and the parts share one document, in which each may disturb the others",
  "anchors": [
   "eulxml/forms/xmlobject.py:XmlObjectForm.__init__",
   "eulxml/forms/xmlobject.py:XmlObjectForm.is_valid",
   "eulxml/forms/xmlobject.py:XmlObjectForm.update_instance",
   "eulxml/forms/xmlobject.py:BaseXmlObjectFormSet",
   "eulxml/forms/xmlobject.py:XmlObjectForm.as_table"
  ]
 },
 "C104": {
  "title": "formfields_for_xmlobject returns what a form class with the same options has",
  "statement": "Called with declared_subforms, formfields_for_xmlobject(model, fields, exclude, widgets, options, declared_subforms) returns the form fields, subforms and formsets, in the same order, that a class statement for an XmlObjectForm with the same model, fields, exclude and widgets in Meta and the same subform classes gives, and fails with the same exception where that fails. Called with the options of such a form class it returns what the class has; lists and widgets given directly win over those in options. Without declared_subforms, models whose chosen fields are not NodeFields or NodeListFields give the same result as with an empty dictionary, and models with a chosen NodeField or NodeListField an exception, although the documentation calls the argument optional.",
  "quantifier": "all models, name lists, widgets, options, dictionaries of declared subforms and values of max_num and extra",
  "why_tests_cant": "agreement with the metaclass ranges over all models and all combinations of arguments and nested field lists; a test compares a few",
  "anchors": [
   "eulxml/forms/xmlobject.py:formfields_for_xmlobject",
   "eulxml/forms/xmlobject.py:XmlObjectFormType.__new__",
   "eulxml/forms/xmlobject.py:_parse_field_list"
  ]
 },
 "C105": {
  "title": "A list field over attributes is a list of fixed length",
  "statement": "For a list field (strings, integers, or any kind that is written as text and read back) whose XPath is child steps followed by an attribute, e.g. EAD language_codes, the list holds the values of the attributes in document order. If it is not empty, any sequence of operations behaves like a Python list, except that operations that would change the length raise TypeError and change nothing; afterwards the attributes hold the values of the list and nothing but their values has changed. Assigning a list of the same length sets the values; assigning another length raises TypeError after setting the values there are attributes for; del raises TypeError and changes nothing. On an empty list, append creates the attribute as a single-value field would. Inserting at a negative index raises TypeError if that index is in range and IndexError otherwise, without a change.",
  "quantifier": "all such XPaths whose predicates are about attributes and not about the listed one, all documents, engines, histories of operations and values",
  "why_tests_cant": "ranges over all documents, paths and operation histories; which operations work follows from lxml accepting only elements in index() and remove()",
  "anchors": [
   "eulxml/xmlmap/fields.py:NodeList.__setitem__",
   "eulxml/xmlmap/fields.py:NodeList.__delitem__",
   "eulxml/xmlmap/fields.py:NodeList.insert",
   "eulxml/xmlmap/fields.py:NodeListManager.set",
   "eulxml/xmlmap/fields.py:NodeListManager.delete",
   "eulxml/xmlmap/eadmap.py:ProfileDescription"
  ]
 },
 "C106": {
  "title": "A datetime with a time zone keeps its wall-clock time and loses the zone",
  "statement": "Assigning an aware datetime to a DateTimeField without a format always works. If its offset is in whole minutes, reading gives the naive datetime with the same wall-clock time, with or without normalize; two such datetimes read the same exactly when their wall-clock times are the same, whatever their zones. If the offset has seconds (or microseconds), the field can no longer be read: ValueError.",
  "quantifier": "all datetimes that exist, all offsets of less than a day, all supported field paths, documents and engines",
  "why_tests_cant": "ranges over all datetimes, offsets and documents; that an offset with seconds fails in every case needs all ways in which the format could match",
  "anchors": [
   "eulxml/xmlmap/fields.py:DateTimeMapper.to_python",
   "eulxml/xmlmap/fields.py:DateTimeMapper.to_xml",
   "eulxml/xmlmap/fields.py:DateTimeField"
  ]
 },
 "C107": {
  "title": "Fields for an element and for its attributes act on one element that can be missing",
  "statement": "Let the fields of an XmlObject be for the text of elements below its element and for attributes of these elements (p and p/@x, as in mods.Role), the paths of different elements parting, with at most one element at each step and no children at the end. Then every history of assignments and deletions runs without exception and changes nothing outside of the object's element; each element is what replaying the history on an element that can be missing gives: an assignment makes the element if needed (with the attributes its predicates ask for) and sets the text or attribute; deleting the text field removes the element with all attributes; deleting an attribute field removes the attribute, and the element together with its text if no attribute is left but those the predicates compare. Each field reads what its element says, elements do not influence each other, and no field whose path parts from them changes.",
  "quantifier": "all such groups of fields of any type, all histories, documents, values and engines",
  "why_tests_cant": "ranges over all histories of operations on fields that do influence each other, all classes and documents; the rule by which an element disappears with its text depends on what earlier operations left",
  "anchors": [
   "eulxml/xmlmap/fields.py:SingleNodeManager.set",
   "eulxml/xmlmap/fields.py:SingleNodeManager.delete",
   "eulxml/xmlmap/fields.py:_remove_xml",
   "eulxml/xmlmap/fields.py:_remove_predicates",
   "eulxml/xmlmap/fields.py:_empty_except_predicates",
   "eulxml/xmlmap/mods.py:Role"
  ]
 },
 "C108": {
  "title": "Insertion at a negative index of a list field",
  "statement": "lst.insert(-j, v) on the list of a single-step child field is no insertion of v: for 1 <= j <= len(lst) a new blank element (as built for the step of the XPath) appears in front of the j-th last member, and that member itself is overwritten with v; nothing else changes. For j > len(lst) it raises IndexError and nothing changes (a Python list would insert at the front). If the field can read a blank element (strings: '', integers: None, nodes: the element), any sequence of list operations, with any integer indices, gives the results, errors and contents of the Python list with this one deviation. A list of datetimes cannot be read any more after such an insertion (counterexample).",
  "quantifier": "every document, element and covered list field whose XPath is one child step and whose members the field can read; every negative index; every finite sequence of list operations with any integer indices and storable values",
  "why_tests_cant": "the deviation must be known for all lengths, indices, predicates and histories; a test at one index shows only one overwritten item",
  "anchors": [
   "eulxml/xmlmap/fields.py: NodeList.insert, NodeList.__setitem__, _create_xml_node"
  ]
 },
 "C109": {
  "title": "Rearranging the elements of a NodeListField",
  "statement": "Take items = list(obj.field) of a NodeListField and any new objects whose elements fit the XPath step. Any sequence of l[i], l[i] = x, append, extend, insert (index >= 0), del, pop whose values x are any of these objects - in the list or not - gives the results, errors and order of a shelf, where putting a thing somewhere takes it away from where it was; every element keeps its content, whether it ends up in the list or outside, and nothing but the members of the list changes. In particular obj.field = [...] with any of these objects in any order, each at most once (sorted, reversed, filtered, mixed with new ones), makes the list show just these elements in this order, and l.extend(list(l)) changes nothing. It is not a Python list: l[i], l[i+1] = l[i+1], l[i] loses the item behind the two, and assigning a list with the same object twice loses items or raises IndexError (counterexamples).",
  "quantifier": "every document, element and node list field whose XPath is one child step; every set of new elements that fit the step; every finite sequence of the operations with any indices (insertion index >= 0); every duplicate-free list of the objects",
  "why_tests_cant": "the effect depends on where the moved element was relative to the target and on the current length; it must hold for all permutations, lengths and histories",
  "anchors": [
   "eulxml/xmlmap/fields.py: NodeList.__setitem__, NodeList.__delitem__, NodeList.append, NodeList.extend, NodeList.insert, NodeList.pop, NodeListManager.set"
  ]
 },
 "C110": {
  "title": "Deletion with any XPath only takes away, or does nothing",
  "statement": "For every XPath, document, behaviour of the XPath engine and outcome (also when an exception is raised): after del obj.field or obj.field = None the document is the one before from which things were taken away at some places: whole elements (only if the XPath has an element step), attributes (only if it has an attribute step), texts that become empty (only if it has a text() step); everything left keeps its tag, attributes, text, tail and order. If the last step of the XPath is no element, attribute or text() step ('.', '..', other axes, node(), functions, unions, absolute paths, '//' before the last step), deletion silently changes nothing, so the field still shows its value, and no exception is raised as long as the lookups succeed with nodes. For list fields with any XPath: reading operations change nothing, del l[i], pop and remove take away at most one element, del obj.field takes away only elements.",
  "quantifier": "every XPath expression the parser accepts, every document, node, context and engine (any results and errors, even inconsistent ones); every list operation, mapper and index",
  "why_tests_cant": "tests can only try some XPaths and documents; data loss outside of what the field names must be excluded for all of them, including XPaths for which deletion was not designed",
  "anchors": [
   "eulxml/xmlmap/fields.py: _remove_xml, _remove_child_node, _remove_attribute_node, SingleNodeManager.delete, SingleNodeManager.set, NodeList.__delitem__, NodeList.pop, NodeList.remove, NodeListManager.delete"
  ]
 },
 "C111": {
  "title": "An object for an element inside a document acts on that element only",
  "statement": "Let a field's XPath (and the partial paths looked up on assignment and deletion) look downwards only: evaluated at an element of a document they select what they select in a document consisting of that element. Then reading (also with instantiate_on_get), assigning, deleting and create_<field> through an object whose element is anywhere in a document give the same result or exception, and do to the element the same, as for an object whose element is a whole document; nothing outside of the element changes, also when an exception is raised. The same for list fields: reading, every list operation, assigning and deleting the list, if the XPath does not select the element itself. Programs made of such steps, where later steps may depend on what was read, have the property again. All paths of child steps with an optional attribute or text() at the end qualify. It fails for XPaths that look upwards (../b changes a sibling) and for lists that select the element itself.",
  "quantifier": "every document, every position of the element in it, every field XPath whose lookups look downwards, every mapper and value (elements that are already in the document excepted), every list operation, histories of any length",
  "why_tests_cant": "a test has one document and one position; that editing a nested object never leaks into the surrounding document must hold for all of them and on every error path",
  "anchors": [
   "eulxml/xmlmap/fields.py: SingleNodeManager.get/set/delete/create, _create_xml_node, _remove_xml, _find_xml_node, NodeList, NodeListManager",
   "eulxml/xmlmap/core.py: XmlObject.__init__ (any element as node)"
  ]
 },
 "C112": {
  "title": "Objects kept for the items of a list stay live while the list is changed",
  "statement": "Take items = list(obj.field) of a NodeListField with one child step, and objects for new elements. Run any sequence that mixes list operations with these objects (index assignment, append, extend, insert, del, pop, also moving items) and programs through the kept objects (reading, assigning, deleting their fields, list operations on them), at times when their elements are in the list or outside. Then every result and exception, and the element of every object at the end, are those of the abstract picture in which each object is a document of its own and the list is a shelf holding some of them in order: edits through a kept object appear in the list item and conversely, moving an item never detaches its object or mixes up objects, an item taken out can be edited and put back. Nothing in the list's owner but its members changes. If an edit makes an item not fit the list's XPath, the list stops showing it.",
  "quantifier": "every document, every position of the list's owner, every number of items and new elements, every finite history of list operations and local programs (C111), failing ones included, that leave each element fitting the step",
  "why_tests_cant": "interleavings of moves and edits through aliases grow without bound; tests can only try a few, and a stale or swapped alias shows up only in particular histories",
  "anchors": [
   "eulxml/xmlmap/fields.py: NodeList, NodeMapper, SingleNodeManager",
   "eulxml/xmlmap/core.py: XmlObject.__init__ (node)"
  ]
 },
 "C113": {
  "title": "Fields with computed XPaths never change the document",
  "statement": "A field whose XPath computes a value (a function call such as count(a) or string(b), a comparison, arithmetic, ...) is read-only: assigning to it raises AttributeError if the XPath gives a non-empty string, raises an Exception if it gives an empty string, 0, false or no nodes, and is silently ignored if it gives another number (NaN and infinities included) or true; assigning None and deleting do nothing and raise nothing; create_<field> and reading with instantiate_on_get raise an Exception on a false result. The document is the same afterwards in every case. An IntegerField reads NaN as None and raises OverflowError for an infinity.",
  "quantifier": "every engine, document, node, context, every XPath that is neither a step nor steps joined by /, every result of it, every value (text or element)",
  "why_tests_cant": "the outcome depends on the kind and truth value of the XPath result and on the shape of the expression; all combinations must leave the document alone",
  "anchors": [
   "eulxml/xmlmap/fields.py: _find_xml_node, _set_in_xml, _create_xml_node, _remove_xml, SingleNodeManager, IntegerMapper.to_python"
  ]
 },
 "C114": {
  "title": "insert() on a list field with several steps overwrites an item",
  "statement": "On a list field whose XPath has several child steps (a/b), insert(i, v) with 0 <= i < len does not insert: if one parent is there, afterwards the list is the old one with v instead of the i-th item (which is lost) and a blank item at the end. In general a blank item appears at the end of the first parent, and v replaces the item that i denotes in the list that is one longer, so insert(-1, v) replaces the last item of it. insert(-j, v) with j > len raises IndexError and changes nothing, and so does insert(i, v) with i != 0 if no parent is there. Every sequence of list operations with any indices has the results, errors and final list of that specification, and changes nothing but members of the parents.",
  "quantifier": "every document, parents, members, path of child steps, list kind that can read a blank element (strings, integers, elements), every sequence of operations with any indices and values",
  "why_tests_cant": "histories, indices and distributions of items over parents are unbounded; the library's tests insert only on one-step paths",
  "anchors": [
   "eulxml/xmlmap/fields.py:NodeList.insert",
   "eulxml/xmlmap/fields.py:_create_xml_node"
  ]
 },
 "C115": {
  "title": "Bundled classes with all their fields, also those that share an element",
  "statement": "For every bundled class (Dublin Core, PREMIS, MODS, CERP, EAD, TEI) whose text, number and truth fields are child elements and attributes, take any of its fields (only docauthor of TeiDiv is left out), also those for an attribute of another field's element (mods.Role.type/authority/text, the message ids of CERP messages). Every history of assignments and deletions on an object of the class with at most one element at each step runs without exception and changes nothing outside of the object's element. Afterwards each element is what a simple replay says: assigning makes it and sets text or attribute, deleting the text field removes it with its attributes, deleting an attribute field removes the attribute, and the element with its text if no other attribute is left; and every field reads what its element says. A new object has room for all fields.",
  "quantifier": "every such class, choice of fields, context that extends the class's prefixes, document, object in it, and every history with any values that give XML text or nothing",
  "why_tests_cant": "histories over all fields and all values are unbounded; interactions between a field and the attribute field on the same element show only in particular orders",
  "anchors": [
   "eulxml/xmlmap/mods.py",
   "eulxml/xmlmap/cerp.py",
   "eulxml/xmlmap/fields.py:_set_in_xml",
   "eulxml/xmlmap/fields.py:_remove_xml"
  ]
 },
 "C116": {
  "title": "Assigning values, with any XPath, only adds and touches one element; nothing is lost",
  "statement": "Assigning a text, number, date or truth value to a field, whatever its XPath is, whatever the XPath engine answers, and also if an exception is raised: the document afterwards is the document before with elements added (everything that was there is there in the same order, with the same texts, attributes and tails), and then with at most the text and one attribute of one element changed, to the assigned text (an attribute can also be left empty). If the XPath selects something, nothing is added; if the value cannot be converted, nothing happens. The same holds for create_<field>(), for assigning an item of a list and for append. No sequence of assignments, create methods, item assignments, append, extend and insert, on any objects of the document, loses or moves an element, comment, processing instruction, tail or attribute.",
  "quantifier": "every XPath, engine behaviour, context, document, value, outcome, and every sequence of such statements on any objects",
  "why_tests_cant": "XPaths, documents and sequences are unbounded, and the absence of any loss cannot be seen from examples",
  "anchors": [
   "eulxml/xmlmap/fields.py:_create_xml_node",
   "eulxml/xmlmap/fields.py:_create_child_node",
   "eulxml/xmlmap/fields.py:_construct_predicate",
   "eulxml/xmlmap/fields.py:_set_in_xml",
   "eulxml/xmlmap/fields.py:SingleNodeManager.set",
   "eulxml/xmlmap/fields.py:NodeList.insert"
  ]
 },
 "C117": {
  "title": "Fields whose XPath selects elements at several places",
  "statement": "Take an XPath made of child steps (a name, * or p:*, with predicates about attributes) joined by / and //, possibly starting with '.', or a union of such paths; all list fields of the bundled classes that are neither single steps nor end in an attribute are of this kind (DublinCore.elements, ControlledAccessHeadings.terms, Component.c, TeiEpigraph.quote, TeiFloatingText.line, all_figures ...). A list field with such an XPath shows the items of the selected elements, at all depths, in document order. In any sequence of reading, setting, deleting, popping and removing items it gives the results and errors of the same operations on the Python list of the items, shows that list at the end, and nothing but the selected elements has changed. If the XPath's last operation is a union or //, nothing can be added: append, extend, insert and assignment at index len raise an exception and change nothing, and everything else goes on as before. An operation that fails leaves the document as it was. Assigning at most as many values as there are items makes the field show these; with more values, where nothing can be added, the items are set first and then an exception is raised. del obj.field takes out exactly the selected elements. A single-value field with such an XPath reads the first selected element or None; assigning a text changes that element and nothing else; for unions and //, if nothing is selected, assigning and create_<field> raise and change nothing, and deleting the field, or assigning None, silently does nothing. Not guaranteed if selected elements are nested: taking one out takes out those inside of it (counterexample).",
  "quantifier": "every document, element, XPath of this form (any number of steps and alternatives), number and depth of selected elements (none inside of another), every kind of list field of C25, every sequence of list operations with any integer indices and storable values (elements: such that the XPath selects them where it selects some element, with no further selected element in them)",
  "why_tests_cant": "members can be anywhere in a tree of any shape, and the claim is about all histories of operations; the places of all later members change with each removal",
  "anchors": [
   "eulxml/xmlmap/fields.py:NodeList",
   "eulxml/xmlmap/fields.py:NodeListManager",
   "eulxml/xmlmap/fields.py:SingleNodeManager",
   "eulxml/xmlmap/fields.py:_create_xml_node",
   "eulxml/xmlmap/fields.py:_find_terminal_step",
   "eulxml/xmlmap/teimap.py:TeiFloatingText",
   "eulxml/xmlmap/eadmap.py:DescriptiveIdentification"
  ]
 },
 "C118": {
  "title": "List fields whose XPath ends in text()",
  "statement": "Let the XPath of a string or integer list field be child steps followed by text(), with predicates about attributes only, and let the elements selected by the steps have no text behind a child. The field reads as the list of these elements' texts in document order. On a non-empty list every sequence of list operations acts as on a Python list as long as an operation leaves the length as it is; an operation that would change the length raises TypeError and changes nothing. Afterwards the texts are the values of the list and everything else in the document is as before. Assigning a list of the same length sets the texts; assigning a list of another length raises TypeError after the texts have been set from the front; del raises TypeError. On an empty list append is the assignment of a single-value field with this XPath, and del does nothing. Inserting at a negative index raises TypeError if that index is in range and IndexError otherwise, without a change.",
  "quantifier": "all documents, XPaths of the kind, lists, sequences of operations and storable values",
  "why_tests_cant": "The list is a live view of text nodes, which lxml presents as strings with a getparent(); whether an operation works depends on where the text stands, for documents and histories of any size.",
  "anchors": [
   "eulxml/xmlmap/fields.py: NodeList.__setitem__, NodeList.__delitem__, NodeList.append, NodeList.insert, NodeList.matches, _set_in_xml, _is_text_nodetest, _create_xml_node"
  ]
 },
 "C119": {
  "title": "Formsets whose forms have subforms",
  "statement": "Let the list field of a formset have one child step, with predicates about attributes that are not fields of the forms, and let the forms of the formset have subforms, at any depth, as in C85. If all the submitted data are valid, saving the formset saves each form, with all its subforms, on the element of its member, or on a new element, as in C85: submitted fields read as submitted, other fields as before, and the objects of subforms are there unless they are empty. Without order the members of the list are then those whose forms are not marked for deletion, in order, followed by one new element for each changed additional form. With order they are the elements of the forms that count, by increasing order, those without order last. Nothing else in the document changes. No element of a form marked for deletion may be like another member of the list, and with order all the elements have to be different.",
  "quantifier": "all documents, list fields, trees of forms of one class, submitted data (valid) with any deletion marks and orders, with and without can_delete and can_order",
  "why_tests_cant": "Making a form changes its element, each validation updates the instances once more, subform elements are removed when empty, and members are found again by the equality of their serializations; whether the result is the submitted one has to be shown for every list, tree of forms and submission.",
  "anchors": [
   "eulxml/forms/xmlobject.py: BaseXmlObjectFormSet._construct_form, BaseXmlObjectFormSet.update_instance, XmlObjectForm._init_subforms, XmlObjectForm.update_instance, XmlObjectForm.is_valid"
  ]
 },
 "C120": {
  "title": "Assigning to whatever an XPath selects",
  "statement": "Take a single-value field with any XPath at all (//, axes, positions, functions, parentheses, predicates of any kind) that selects something. Assigning a text gives it to the first selected node and changes nothing else: an element without children gets it as its text, an attribute as its value, a text as its new text, the latter two if the last step of the XPath is a name or text(). In every other case an exception is raised and the document stays as it was: Exception for an element with children, ValueError for characters that XML does not allow and for @*, AttributeError for attributes and texts that the last step does not name (absolute paths, unions, node(), ...). The same holds for obj.list[i] = value and the i-th selected node, from the front or the back. If the XPath still selects that node first, the field then reads the assigned text, or integer. Two cases are excluded, in which the code writes elsewhere: texts behind a child, and attributes called text.",
  "quantifier": "every XPath, engine behaviour that fits the last step, document, object, index and text",
  "why_tests_cant": "The code decides by the last step of the parsed XPath where to write, and by the first result of the engine what to write to; that the two fit together has to hold for every XPath expression and every result.",
  "anchors": [
   "eulxml/xmlmap/fields.py: _set_in_xml, _find_terminal_step, _find_xml_node, SingleNodeManager.set, NodeList.__setitem__, _get_attribute_name"
  ]
 },
 "C121": {
  "title": "No program over fields and lists makes, copies or moves a comment, a processing instruction or a tail",
  "statement": "Take any program of statements about fields and list fields, on any objects of a document: reading (also fields that instantiate what they do not find), assigning texts, numbers, dates, truth values or None, deleting, create_ methods, every operation of lists, assigning whole lists, deleting lists; with any XPaths, any behaviour of the XPath engine, and exceptions caught after each statement. The comments, processing instructions and texts behind elements afterwards are some of those before, in the same order and with the same tails; none is new, none occurs twice, none has moved. If the program only gives (no deletion, no None), they are exactly those before.",
  "quantifier": "every program of such statements, XPaths, engine behaviour, document and outcome of each statement",
  "why_tests_cant": "Deletion and creation interleave without bound and find their places by XPath; that the parts of a document no field speaks about are never made up or reordered has to hold after every history.",
  "anchors": [
   "eulxml/xmlmap/fields.py: SingleNodeManager, NodeList, NodeListManager, _create_xml_node, _remove_xml, _set_in_xml"
  ]
 },
 "C122": {
  "title": "Everything in the document was there before, was assigned, or is written in an XPath",
  "statement": "After any program of statements about fields and list fields as in C121, now also assigning objects (of this or of other documents) and operating on lists of objects: call the document before and the elements of other documents that the program assigns the sources. Every element has the name of an element in the sources, or of an element step in one of the XPaths (with the namespace the class gives its prefix), and comments and processing instructions are like some in the sources; every attribute has the name of an attribute in the sources, or of a step in one of the XPaths; every text and every value of an attribute is in the sources, is empty, was assigned by one of the statements (after conversion), or is a text, a number or the value of a variable in one of the XPaths; every text behind an element is in the sources.",
  "quantifier": "every program of such statements, XPaths, engine behaviour, document and outcome of each statement",
  "why_tests_cant": "A test sees the names and values it expects; that nothing else can ever come into a document is a statement about all histories.",
  "anchors": [
   "eulxml/xmlmap/fields.py: _create_xml_node, _create_child_node, _create_attribute_node, _construct_predicate, _set_in_xml, _get_attribute_name, SingleNodeManager, NodeList, NodeListManager"
  ]
 },
 "C123": {
  "title": "Taking from a list with any XPath takes exactly the selected item, or raises and changes nothing",
  "statement": "For a list field with any XPath (any axes, functions, unions, predicates, in whatever order the items come) and any engine: `del obj.list[i]`, `obj.list.pop(i)`, `obj.list.pop()` and `obj.list.remove(x)` either raise, and then the document is the one before the statement, or they have removed exactly one element, with its content and the text behind it, and nothing else has changed. This element is the one at index i of what the XPath selects (a negative index counts from the back), the last one for `pop()`, the first one that reads x for `remove(x)`; `pop` returns what the field's mapper reads from it. They do not raise when that item is an element with a parent (and can be read, for `pop(i)`; when all items can be read, for `pop()` and `remove`); an index that the list does not have raises IndexError, a value that no item reads raises ValueError.",
  "quantifier": "every XPath, XPath engine, context, mapper, document, object's element, index and value",
  "why_tests_cant": "Which node a call removes depends on what the XPath selects and in which order; a test has one XPath and one document. That an exception leaves the document alone has to hold for every point where one can be raised.",
  "anchors": [
   "eulxml/xmlmap/fields.py:NodeList.__delitem__",
   "eulxml/xmlmap/fields.py:NodeList.pop",
   "eulxml/xmlmap/fields.py:NodeList.remove",
   "eulxml/xmlmap/fields.py:NodeList.index"
  ]
 },
 "C124": {
  "title": "Which exceptions statements about fields and lists raise, and why",
  "statement": "For fields and list fields with any XPath, any engine and any document, an exception that is not the engine's own or the mapper's is one of the following. Assigning a text, `create_…()` and reading with instantiation: Exception (creation not supported, or the element has children), AttributeError (no element to work on), NameError only if the XPath has a step along another axis than child and attribute, KeyError only if it has a step with a prefix or a variable that the class does not know, TypeError only for such a prefix, ValueError only if it has a star step or quotes a value that XML does not allow, or the assigned text is such. So with an XPath that gives none of these reasons and a text that XML allows, an assignment raises nothing but Exception and AttributeError. Assigning an object: also TypeError, and ValueError only for an object of the same document. Deleting: AttributeError, TypeError, ValueError, and KeyError only with an attribute step. Lists: AttributeError, TypeError; IndexError only for operations with an index (and assigning a whole list); ValueError for `remove`, `index` and deleting the list; and for operations that are given values the exceptions of creation for their reasons, those of converting the value, and ValueError for a text that XML does not allow or an object of the same document. In particular append, extend and remove never raise IndexError of their own.",
  "quantifier": "every XPath expression, engine, context (namespaces and variables), document, element, value, mapper and list operation",
  "why_tests_cant": "It is a statement about all the places where something can be raised, for all XPaths; a test shows one exception for one XPath.",
  "anchors": [
   "eulxml/xmlmap/fields.py:_create_xml_node",
   "eulxml/xmlmap/fields.py:_create_child_node",
   "eulxml/xmlmap/fields.py:_create_attribute_node",
   "eulxml/xmlmap/fields.py:_construct_predicate",
   "eulxml/xmlmap/fields.py:_set_in_xml",
   "eulxml/xmlmap/fields.py:_remove_xml",
   "eulxml/xmlmap/fields.py:_remove_predicates",
   "eulxml/xmlmap/fields.py:SingleNodeManager",
   "eulxml/xmlmap/fields.py:NodeList"
  ]
 },
 "C125": {
  "title": "Assigning what is already there changes nothing, and the last of several assignments wins, with any XPath",
  "statement": "For a field or list field with any XPath and any engine, when the XPath selects a node that shows a text (an element without children, an attribute, or the text in front of the first child): assigning this text leaves the document exactly as it was. The same holds for an item of a list, and for assigning a list the values it has (`obj.list = list(obj.list)`), whatever the order in which the XPath gives the items. None of this raises if XML allows the texts and the last step of the XPath names the nodes. An assignment that worked can be repeated without any effect, and after two assignments that worked the document is the one that the second alone makes, provided that the XPath still selects the same node.",
  "quantifier": "every XPath, engine, context, document, element, selected node, text, list of values and mapper",
  "why_tests_cant": "That saving unchanged values does not alter a document is expected of every document and every XPath; a test compares one document before and after.",
  "anchors": [
   "eulxml/xmlmap/fields.py:SingleNodeManager.set",
   "eulxml/xmlmap/fields.py:NodeList.__setitem__",
   "eulxml/xmlmap/fields.py:NodeListManager.set",
   "eulxml/xmlmap/fields.py:_set_in_xml"
  ]
 },
 "C126": {
  "title": "The operations of a list field with any XPath agree with those of the Python list of its values",
  "statement": "For a list field with any XPath, any engine and any mapper, when the XPath selects items that read the values d: len, indexing, index, count, `in` and == give what they give for the Python list d, with the same exceptions (IndexError, ValueError), and change nothing. del, pop and remove, when the items are elements inside the document, have the results and exceptions of the list d, and what Python takes out of d at a position is the item taken out of the document (when Python raises, the document is unchanged). Negative indexes count from the back when getting, setting, deleting and popping. Setting outside the list raises IndexError, as inserting behind its end does, and changes nothing. append(x) is list[len(list)] = x, and extend(l + l') is extend(l) followed, unless it raised, by extend(l').",
  "quantifier": "every XPath, engine, context, mapper, document, element, list of selected items, values, operation and index",
  "why_tests_cant": "The range is every XPath, every document and every index, including results in an order other than document order.",
  "anchors": [
   "eulxml/xmlmap/fields.py:NodeList.__getitem__",
   "eulxml/xmlmap/fields.py:NodeList.__setitem__",
   "eulxml/xmlmap/fields.py:NodeList.__delitem__",
   "eulxml/xmlmap/fields.py:NodeList.pop",
   "eulxml/xmlmap/fields.py:NodeList.remove",
   "eulxml/xmlmap/fields.py:NodeList.insert",
   "eulxml/xmlmap/fields.py:NodeList.extend"
  ]
 },
 "C127": {
  "title": "Statements through objects for separate elements of a document can be executed in any order",
  "statement": "Let several clients (parts of a program, or threads) have one XmlObject each, for elements of one document none of which is inside of another, and let the statements they execute (reading, assigning, deleting and creating fields, and all list operations, with XPaths that look downwards) be interleaved in any order, statement by statement. Each client may choose its next statement depending on what its earlier ones returned or raised, and may catch exceptions. Then for every schedule every client observes what it would observe with a document to itself that consists of its element, and its element becomes what it would be there; nothing changes anywhere else; two schedules that differ in the order only lead to the same document; and so do two schedules under which all the clients finish, with the same results. The items of a list field whose XPath is a child step are always separate, so that a program can work on them in any order. It fails for clients with objects for the same element.",
  "quantifier": "every number of clients, every program of every client, every document, every position of the elements, every schedule of any length",
  "why_tests_cant": "The number of interleavings grows exponentially; a test executes a few of them, for particular programs.",
  "anchors": [
   "eulxml/xmlmap/fields.py:SingleNodeManager.set",
   "eulxml/xmlmap/fields.py:SingleNodeManager.get",
   "eulxml/xmlmap/fields.py:NodeListManager.set",
   "eulxml/xmlmap/fields.py:NodeList",
   "eulxml/xmlmap/core.py:XmlObject"
  ]
 },
 "C128": {
  "title": "Assignments to fields that select different nodes can be exchanged",
  "statement": "Take two single-value fields with any XPaths, of the same object or of different objects, in a document where the first XPath selects one node and the second a different one (elements, attributes, or the text in front of the first child; an element without children and its text count as the same). If each assignment works, and leaves the other XPath selecting its node, then the two assignments work one after the other in either order, make the same document, and both values are in it. When the XPaths do not select anything yet, the order can be seen: elements are created in the order of the assignments.",
  "quantifier": "every pair of XPaths, engine, context, document, pair of objects, pair of selected nodes and pair of texts",
  "why_tests_cant": "That fields do not depend on the order of assignments is assumed whenever several fields are filled from a dictionary or a form; a test tries two fields of one document.",
  "anchors": [
   "eulxml/xmlmap/fields.py:SingleNodeManager.set",
   "eulxml/xmlmap/fields.py:_set_in_xml"
  ]
 },
 "C129": {
  "title": "A value that cannot be stored stops an assignment to a list where it stands",
  "statement": "A value is refused if the mapper of the list field raises for it, or if its text has a character that XML does not allow. obj.list = good + [bad] + rest, with bad refused, raises; what has happened then is that the values in front of bad have been assigned: the values behind it have not been looked at and no surplus items have been removed, whatever the XPath. For list fields with a child step: if the list was longer than good, it shows good, followed by what it showed before at these places; otherwise it is as if good alone had been assigned, with an empty new item behind the last one. In the same way extend(good + [bad] + rest) and append(bad) add the values of good and leave an empty new item behind them. obj.list[i] = bad leaves the document unchanged, for any XPath. Nothing but the list's items changes.",
  "quantifier": "every document, list field, position of the refused value, values in front of and behind it; for single items and for the first part every XPath and engine",
  "why_tests_cant": "The state after a failure is asked for every place at which the failure can happen, every document and every list; a test lets one assignment fail at one place.",
  "anchors": [
   "eulxml/xmlmap/fields.py:NodeListManager.set",
   "eulxml/xmlmap/fields.py:NodeList.__setitem__",
   "eulxml/xmlmap/fields.py:NodeList.extend",
   "eulxml/xmlmap/fields.py:NodeList.append"
  ]
 },
 "C130": {
  "title": "Assigning a list ends, whatever the XPath, and the list is not longer than the value then",
  "statement": "obj.list = value assigns the values one after the other and then takes items out (pop) while the list is longer than the value. This loop always ends, with an exception or without one, for every XPath, mapper, engine and document, also where a pop does not make the list shorter (with the XPath a[1] the next element a comes up): it makes at most as many rounds as the document has nodes, since every pop that does not raise takes an element out of the document. If the assignment does not raise, the list has at most as many items as the value afterwards; after obj.list = [] it is empty, and for a[1] that means that every element a is gone.",
  "quantifier": "every document, XPath, engine, mapper and value",
  "why_tests_cant": "That a while loop ends for every document and every XPath cannot be seen from runs that end.",
  "anchors": [
   "eulxml/xmlmap/fields.py:NodeListManager.set",
   "eulxml/xmlmap/fields.py:NodeList.pop"
  ]
 },
 "C131": {
  "title": "However a list is emptied, the document is the same",
  "statement": "Operations on a list field, assignments of the whole list and deletions of it, in any order: every statement returns what it returns for a Python list, the field shows what the Python list is, and nothing but the members changes. If the list is empty in the end, the document is exactly the one before without the members of the list, whatever the statements were; so two sequences of statements that both empty the list lead to the same document, and del obj.list and obj.list = [] do the same.",
  "quantifier": "every document, element, list field (strings, integers, dates, elements) whose XPath is one child step with buildable predicates, and every sequence of statements with values that can be stored, without insertions at negative indices",
  "why_tests_cant": "Two arbitrary sequences of statements are compared, on every document.",
  "anchors": [
   "eulxml/xmlmap/fields.py:NodeList",
   "eulxml/xmlmap/fields.py:NodeListManager.set",
   "eulxml/xmlmap/fields.py:NodeListManager.delete"
  ]
 },
 "C132": {
  "title": "Assigning a list, or an item of it, to itself changes nothing, with any XPath",
  "statement": "For a list of objects whose XPath selects elements below the root of the document, whatever the XPath and the order: obj.list[i] = obj.list[i], obj.list = obj.list and obj.list = list(obj.list) leave the document as it is, and do not raise. obj.list = list(obj.list)[:j] does nothing but what while len(obj.list) > j: obj.list.pop() does, and assigning list(obj.list) + more is assigning the values of more at the indices behind the list. For lists of values, obj.list = obj.list changes nothing either, if each item shows what would be written for its value.",
  "quantifier": "every document, XPath, engine, selected elements in any order, index and length",
  "why_tests_cant": "The claim is about every XPath and document; a test shows it for one.",
  "anchors": [
   "eulxml/xmlmap/fields.py:NodeListManager.set",
   "eulxml/xmlmap/fields.py:NodeList.__setitem__",
   "eulxml/xmlmap/fields.py:NodeMapper.to_python"
  ]
 },
 "C133": {
  "title": "Clearing or cutting a list takes items out one after the other, as many as it says, with any XPath",
  "statement": "del obj.list, with any XPath, engine and mapper: if it succeeds, as many items have been taken out as the list had at the start, one after the other, each of them an item of the list at its time, with its content and the text behind it, and nothing else has happened; if it raises, fewer have been taken out in this way. The loop while len(obj.list) > n: obj.list.pop(), with which an assignment of n values ends, takes out the last item in each of its rounds, only while the list is longer than n, and nothing else; a round in which pop raises takes out nothing. Each item taken out makes the document smaller by at least one node.",
  "quantifier": "every document, XPath, engine, mapper and length",
  "why_tests_cant": "The number of items and the order in which they go are claimed for every XPath and document, including those for which removing an item changes what the XPath selects.",
  "anchors": [
   "eulxml/xmlmap/fields.py:NodeListManager.delete",
   "eulxml/xmlmap/fields.py:NodeListManager.set",
   "eulxml/xmlmap/fields.py:NodeList.remove",
   "eulxml/xmlmap/fields.py:NodeList.pop"
  ]
 }
}