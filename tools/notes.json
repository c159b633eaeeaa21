{
 "C05": {
  "note": "Unrestricted claim refuted by the C05_counterexample_* theorems."
 },
 "C06": {
  "note": "Unrestricted claim refuted by C06_counterexample."
 },
 "C07": {
  "note": "Unrestricted claim refuted by C07_counterexample (after ',' and '$')."
 },
 "C08": {
  "note": "Unrestricted claim refuted by C08_counterexample (misspelt character class)."
 },
 "C10": {
  "note": "Exact characterisation; failing strings exist (C10_counterexample)."
 },
 "C12": {
  "note": "For every engine satisfying Spec.EngineOk; unrestricted claim refuted by the C12_counterexample_* theorems."
 },
 "C15": {
  "note": "Garbage left by multi-step creation, and silently ignored predicates: C15_counterexample_*."
 },
 "C16": {
  "note": "Without alignment refuted: C16_counterexample_*."
 },
 "C17": {
  "note": "Dates and booleans with a false value: C17_counterexample_mappers."
 },
 "C18": {
  "note": "Hypotheses are needed: C18_counterexample_*."
 },
 "C19": {
  "note": "Text is not protected: C19_counterexample_text."
 },
 "C22": {
  "note": "Own elements (same document): see C24 and graftOwn; C22_counterexample for tail and predicates."
 },
 "C24": {
  "note": "False for NodeFields (C24_counterexample_element holds for every document)."
 },
 "C25": {
  "note": "Negative insert and assignment of own members refuted: C25_counterexample_*."
 },
 "C27": {
  "note": "False for lists of attributes: C27_counterexample_attributes."
 },
 "C28": {
  "note": "False for multi-step paths: C28_counterexample_two_steps."
 },
 "C31": {
  "note": "Beyond 2^53 refuted: C31_counterexample_precision."
 },
 "C33": {
  "note": "Short texts, dates without time, None: C33_counterexample_*."
 },
 "C34": {
  "note": "Refuted for all dates before year 1000: C34_counterexample_*."
 },
 "C35": {
  "note": "Falsy scalars and StringField over numbers: C35_counterexample_*."
 },
 "C36": {
  "note": "Attributes are not normalised: C36_counterexample_attributes."
 },
 "C37": {
  "note": "Diamond inheritance and fields hidden by other attributes make table and lookup differ: C37_counterexample_*."
 },
 "C38": {
  "note": "Shared context dictionaries: C38_sharing, C38_counterexample_sharing."
 },
 "C39": {
  "note": "Base URI is not part of the cache key: C39_counterexample_base_uri."
 },
 "C40": {
  "note": "schema_validation_errors() alone shows the log of the last validation: C40_counterexample_shared_log."
 },
 "C41": {
  "note": "Objects on strings: C41_counterexample_strings. The serializer is a parameter."
 },
 "C42": {
  "note": "Comments and tails: C42_counterexample_comment_and_tail."
 },
 "C44": {
  "note": "One field under two names loses a place: C44_counterexample_alias."
 },
 "C45": {
  "note": "Two blanks: C45_counterexample_two_blanks."
 },
 "C46": {
  "note": "Names with quotes: C46_counterexample_quote."
 },
 "C65": {
  "note": "With several bases only the last one is looked at: C65_counterexample_two_bases."
 },
 "C47": {
  "note": "Repetition: C47_counterexample_twice."
 },
 "C48": {
  "note": "C48_counterexample_*: list field with choices; exclude ignored."
 },
 "C50": {
  "note": "With '-' in a name: C50_counterexample_dash."
 },
 "C68": {
  "note": "Recursive models: C68_counterexample_recursive."
 },
 "C49": {
  "note": "Refuted outside the domain (C49_counterexample_subform): a generated subform whose parent selects some of its fields (Meta.fields is a ParsedFieldList) raises TypeError in update_instance."
 },
 "C51": {
  "note": "'All non-empty values' is refuted for integers: C51_counterexample_zero (0 is dropped)."
 },
 "C52": {
  "note": "Validation (Django's deleted_forms and ordered_forms call is_valid, which updates each form's instance) is part of the model. Refuted without the conditions: C52_counterexample_equal (the wrong one of two equal elements is removed, the order changes), _deleted_extra, _order_loses, _order_new (two equal new elements of an ordered formset become one), _twice (is_valid() followed by update_instance() removes an element that got a deleted one's content). Contents are abstract; on the document: C88."
 },
 "C53": {
  "note": "'The instance is not touched if validation fails' is refuted for valid subforms (C53_counterexample_touched)."
 },
 "C54": {
  "note": "Refuted without the single match, or with text behind the element: C54_counterexample_two, _tail; C54_counterexample_init: creating a form already changes the document."
 },
 "C55": {
  "note": "The entry list runs through the list-field model (append on a NodeListField), for every XPath engine that satisfies EngineOk. Serialization and the comment are parameters. requests installed and existing directory assumed."
 },
 "C56": {
  "note": "Unbuffered writes. C56_counterexample_broken: an interrupted download raises and has already replaced the file."
 },
 "C57": {
  "note": "C57_counterexample_substring: a path that is only part of another entry is never registered. C57_counterexample_separator: libxml2 expects blanks, the code joins with colons."
 },
 "C58": {
  "note": "Whole function modelled on documents through the field managers. Date conversion, charset decoding and str(bytes) are parameters."
 },
 "C59": {
  "note": "C59_counterexample_sender: sender_list is filled from the From header. C59_counterexample_local_id: the built-in function id is stored instead of the argument local_id."
 },
 "C60": {
  "note": "A line without rend raises AttributeError (C60_counterexample_no_rend)."
 },
 "C61": {
  "note": "Assumes an engine that evaluates unions of paths to the selected elements in document order (EngineUnionOk; refEngineU is one)."
 },
 "C62": {
  "note": "Text that follows the unit date is lost and a second unit date stays (C62_counterexample_tail)."
 },
 "C63": {
  "note": "Against their documentation, OriginInfo ignores captured, valid, modified, copyright and other dates (C63_counterexample_captured), a date behind a comment counts as empty (C63_counterexample_comment), a title with only a label counts as empty (C63_counterexample_label)."
 },
 "C64": {
  "note": "Loading an existing document overwrites its version with 2.1 (C64_counterexample_overwritten)."
 },
 "C69": {
  "note": "Excluded, with counterexamples: one path continuing another (a and a/@id), paths selecting the same node, repeated nodes, text() paths."
 },
 "C70": {
  "note": "Subforms and formsets are C51, C52, C54."
 },
 "C71": {
  "note": "C71_counterexample_role shows that text and attributes of a child element (mods.Role) are not independent."
 },
 "C72": {
  "note": "The field tables (Verif/Domain/Bundled.lean) are generated from the sources by tools/bundled.py. Not covered: fields for the element itself ('.', local-name(.)), count(...), './tei:body/tei:head', 'tei:head[1]', node and list fields. C72_counterexample_* show that listed pairs do interfere."
 },
 "C73": {
  "note": "Keywords that are not fields only set Python attributes and are left out. C73_counterexample_bad_value: a refused value raises."
 },
 "C74": {
  "note": "List fields of more than one step and with predicates on elements, and lists that share the path of a single-value field (see C75), are outside. C74_shows: every tidy element shows some state, C74_new_element: a new element is tidy."
 },
 "C75": {
  "note": "C75_refused and C75_value_error are for arbitrary XPaths and engines; C75_simple instantiates them for simple paths; C75_list is for list items. That lxml refuses exactly these characters is part of the model of lxml (Xml.xmlChar)."
 },
 "C76": {
  "note": "Histories: one child step with attribute predicates; string (not normalised) and integer kinds."
 },
 "C77": {
  "note": "The tables of fields are generated from the source (tools/bundled.py). 23 interfering pairs of a single-value and a list field are listed in the model; 13 list fields whose XPath is not one named child step are left out."
 },
 "C78": {
  "note": "On-demand lexer with peek modelled (Verif/XPath/OnDemand.lean) and proved equal to the token stream of the sequential model (lex_token). Setting the input and taking a token are atomic steps. C78_counterexample_swapped: overlapping calls."
 },
 "C79": {
  "note": "The token in the message is the one recorded in the lexer state by the model."
 },
 "C80": {
  "note": "C80_counterexample_zone/_short/_two_digits: formats outside of the stated domain that cannot read what they write. strptime is modelled with its leftmost-longest backtracking over numeric directives; month names, %p, %I, %j, %z are not modelled. Real dates are defined in Spec/Calendar independently of the model's validity check."
 },
 "C81": {
  "note": "The texts are specified in Spec/Texts independently of the model's printers. Years below 1000 are outside of the stated domain for strftime, whose padding depends on the C library."
 },
 "C82": {
  "note": "C82_counterexample_number: FloatMapper lacks the case for numbers that IntegerMapper has. float(), str() and number() are parameters. The example instance uses integers."
 },
 "C83": {
  "note": "C83_counterexample_insert: insertion in front of the end overwrites an item (fields.py:304-310 drops insert_index for multi-step XPaths). C28_counterexample_two_steps: with two parents append is not at the end."
 },
 "C84": {
  "note": "Objects are read anew for each operation (obj.x.y.…), as a chain of attribute accesses; a variable kept across the removal of its element is not in the model. NodeField paths are child steps with attribute predicates. Assigning an object to a NodeField is C22."
 },
 "C85": {
  "note": "Forms have no formsets (C51, C52); Meta.fields and Meta.exclude are lists of names without dots (with dotted names see C49_counterexample_subform); Django's cleaning is a parameter. The object of a subform is the one that its NodeField reads, while its element is in the document. That a subform without data leaves no element is proved for NodeFields of one step without predicates: with more steps or predicates the new element has attributes or a parent that stays, as in the code."
 },
 "C86": {
  "note": "Django's add_prefix of forms and formsets is modelled as documented; C50 (initial data has the keys of these inputs) is separate."
 },
 "C87": {
  "note": "C87_counterexample_empty_formset: a formset without any form makes the output raise IndexError (forms[0] is looked at for a label); C87_counterexample_no_label: so does a subform with form_label = None in a section (AttributeError). Django's HTML of fields is a parameter."
 },
 "C88": {
  "note": "Model Forms/FormsetDoc.lean; refinement of the abstract formset of C52 (sim_formset). Second update also for ordered formsets: C88_twice_ordered. Refuted without the conditions: C88_counterexample_stale (an element added since the form was displayed is overwritten), _alike (two equal new elements of an ordered formset become one), _twice (data loss at the second update), _equal (order changes). Valid formsets only; forms update their elements by arbitrary functions."
 },
 "C89": {
  "note": "Model Forms/FormsetForms.lean. Refuted for a list XPath with an attribute predicate that the new object does not meet: C89_counterexample_predicate (the new element is added to the document, but it is not a member of the list). The forms in the formset have no subforms (for these see C119)."
 },
 "C90": {
  "note": "Model Forms/Whole.lean, specification Spec/Whole.lean. Formsets belong to the root form; the members of a list keep their identity while the rest of the document changes (by number). The conditions for lists are those of C88, with its counterexamples."
 },
 "C91": {
  "note": "Model Forms/Options.lean, which refines Forms/FormClass.lean (C91_same_parts). Refuted for the default arguments: C91_counterexample_factory_delete (can_delete and can_order of the given form class are lost, as their defaults are not None); can_delete and can_order of a SubformField have no effect: C91_counterexample_subformfield. Attribute lookup on base classes in order, which is Python's order unless a class is inherited on several ways."
 },
 "C92": {
  "note": "Refutes what comments in the code say: a label declared with a SubformField does not supersede that of the form class (C92_counterexample_declared_label) and is never used for formsets (C92_counterexample_formset_label); given labels are recapitalised in headings of sections (C92_counterexample_heading). Letters and white space as in ASCII."
 },
 "C93": {
  "note": "Refuted: that the first base class counts, as everywhere else in Python (C93_counterexample_bases), and that declared subforms are inherited (C93_counterexample_subforms)."
 },
 "C94": {
  "note": "Model Forms/Submit.lean on top of Forms/Tree.lean; specification Spec/Submit.lean. Default widgets, no formsets (C90), form fields for fields of the class. Refuted beyond the stated domain: C94_counterexample_unset_boolean (None becomes False), _choice (an unlisted value is silently replaced by the first choice), _white_space, _no_date (an unset optional DateField makes is_valid raise AttributeError), _flag_of_nothing (a flag creates the element of a blank subform)."
 },
 "C95": {
  "note": "Model XmlMap/Iterate.lean, specification Spec/Iterate.lean. Values of pending matches are taken at loop start for bodies without index assignment; for assigning bodies, index-wise reading, text kinds only."
 },
 "C30": {
  "note": "Key types: C30_key_types, C30_integer_keys (assertions are on, i.e. no python -O)."
 },
 "C96": {
  "note": "Model XmlMap/ListBetween.lean (two documents; an element is at one place only, as in lxml). C96_counterexample_live_elements: assigning a live list of elements, in general."
 },
 "C97": {
  "note": "Model Core/ObjText.lean; engine assumption SelfOk: '.' is the context node. Counterexamples: C97_counterexample_delete, _assign_itself, _reference, _hash, _date."
 },
 "C98": {
  "note": "Model Core/Transform.lean; parser, serialiser and XSLT processor are parameters with assumption XsltEnvOk (an element is parsed again from its serialisation; other text behind it makes it no document). Counterexamples: C98_counterexample_tail, _unused_file, _no_stylesheet."
 },
 "C99": {
  "note": "Model Domain/DcmiTypes.lean; rdflib's store and label() are parameters. Counterexamples: C99_counterexample_failed_download, C99_counterexample_broken_graph."
 },
 "C100": {
  "note": "The reference machine is Spec.groupOp on the items of each parent; without additions it is the Python list of all items (C100_list_refinement). Counterexamples: C100_counterexample_append, C100_counterexample_assign. Insertion in front of the end is excluded (C83_counterexample_insert)."
 },
 "C101": {
  "note": "C101_strings / C101_integers: any data; C101_shown_*: the page; C101_edited_* / C101_untouched_*: the way through the browser. Counterexamples: zeros and members that are no numbers are lost though nobody touched them, strings lose line breaks and surrounding white space, lists longer than Django's absolute_max cannot be saved."
 },
 "C102": {
  "note": "C102_saved/C102_ordered need that no element of a form marked for deletion is like another member (as C88, C89), and with order that all saved elements are different. C102_counterexample_choice: with a drop-down list without empty choice an untouched page adds a new element; C102_counterexample_schema: an untouched additional form is validated against the schema, so that a set of valid members is not valid. A changed additional form marked for deletion is added nevertheless (C52)."
 },
 "C103": {
  "note": "C103_shown, C103_distinct, C103_sent, C103_counts, C103_saved, C103_invalid, C103_untouched; C103_any_data: the data need not come from the page. Formsets of the root form only; as C90, C94, C101, C102 otherwise; missing counts are not covered, and the schema result of forms in formsets is only assumed, not concluded. Validating changes members even if the submission is invalid (example)."
 },
 "C104": {
  "note": "C104_as_class, C104_options, C104_override, C104_plain, C104_required, C104_type_error. The arguments max_num and extra are ignored. C104_counterexample_parsed: with an already parsed fields list exclude has no effect; C104_counterexample_exclude: an already parsed exclude list raises TypeError."
 },
 "C105": {
  "note": "C105_read, C105_ops, C105_assign, C105_assign_other, C105_delete, C105_append_empty, C105_delete_empty; C105_strings and C105_integers are the instances for StringListField and IntegerListField. C105_counterexample_append, C105_counterexample_assign: what a user of a list expects fails; C105_counterexample_predicate: a predicate about the listed attribute."
 },
 "C106": {
  "note": "C106_aware, C106_zone_is_lost; C106_counterexample_instants: two instants that read the same. isoformat() of CPython is modelled with its offset; formats with %z are not modelled."
 },
 "C107": {
  "note": "C107_history (effect of every history), C107_read (what fields read), C107_undo, C107_text_lost (deleting the last attribute takes the text along), C107_text_kept. Generalises C69 to paths that continue each other by one attribute step. The elements have no children; paths that continue each other by child steps are not covered."
 },
 "C108": {
  "note": "Completes C25, which excludes negative insertion; datetimes: C108_counterexample_dates."
 },
 "C109": {
  "note": "Completes C25-C27, whose values are elements from outside of the document. Refuted for exchanges and for repeated objects: C109_counterexample_swap, C109_counterexample_twice."
 },
 "C110": {
  "note": "Complements C16-C19 (exact effect for simple paths); no assumption on the engine."
 },
 "C111": {
  "note": "C111_local, C111_lists for any engine with the stated locality; C111_paths, C111_paths_inside show it for the path fragment; C111_histories, C111_outside. C111_counterexample_upwards and C111_counterexample_itself show both conditions are needed. Paths in parentheses behind a slash excluded (XPath 1.0 has none)."
 },
 "C112": {
  "note": "C112_history, on the model of C109 and the locality of C111; C112_counterexample_unfit for edits that break the fit. One child step, insertion index at least 0, remove/index/count by equality not included."
 },
 "C113": {
  "note": "C113_assign, C113_delete, C113_instantiate, C113_not_finite. The silent ignoring of assignments is what the code does; reading such fields is C35."
 },
 "C114": {
  "note": "C114_history for any number of parents (at least one), C114_one_parent for the list itself, C114_no_parent. This is a defect of the library stated as what it does; C83 and C100 cover the sequences without such insertions. Kinds that cannot read a blank element (dates) are left out: the field is unreadable afterwards, as in C108_counterexample_dates."
 },
 "C115": {
  "note": "C115_bundled_cells (all classes checked by the kernel against the table `attached`), C115_new_object; C115_message_id_lost states a consequence: on a CERP message without id, message_id = t; message_id_supplied = True; message_id_supplied = False leaves no message id. C72 covers the choices without shared elements as plain records."
 },
 "C116": {
  "note": "C116_assignment, C116_found, C116_no_value, C116_create, C116_item, C116_append, C116_nothing_lost (sequences, exceptions caught), C116_tags (a plain consequence). No engine assumption. Assigning None (C110 says it only takes away), objects (C22) and whole lists (which can remove surplus items) are not among the statements (C121 covers whole programs with them)."
 },
 "C117": {
  "note": "Assumes of the engine that such a path selects, in document order, the elements whose way from the object's element (names and attributes) is in the language of the path (SearchOk). Adding items through paths that end in a plain step is C25, C83, C100, C114. C117_counterexample_nested shows that the list is no list if members are nested."
 },
 "C118": {
  "note": "Engine assumption EngineOk. With text behind a child the claim is false: C118_counterexample_tail (setting that item overwrites the text of the child element). C118_counterexample_append: unlike a list of elements the list cannot grow."
 },
 "C119": {
  "note": "Engine assumption EngineOk. Stated for valid forms without a schema. Apart is stated for the members as they are after the forms have been made (openMembers). C119_counterexample_subform_only: an additional form with data only for its subform counts as unchanged (Django's has_changed), and the data are lost. C119_counterexample_opened: making the formset already adds the elements of the subforms to the members. A subform with a formset of its own is not covered."
 },
 "C120": {
  "note": "C120_assign, C120_item (complete case distinction), C120_exceptions, C120_reads, C120_reads_integer. Only assumption about the engine: FitsStep (a path ending in a name selects elements or attributes of this name, one ending in text() selects texts). C120_counterexample_absolute: an attribute selected by //a/@b cannot be assigned (AttributeError). The excluded cases: C118_counterexample_tail, C12_counterexample_attribute_named_text."
 },
 "C121": {
  "note": "Assigning XmlObjects (which moves whole elements, see C22, C109) is not among the statements. The content of a comment can be overwritten if an XPath selects it."
 },
 "C122": {
  "note": "An attribute with a prefix the class does not know gets the namespace 'None' (then a TypeError is raised); the specification says so. Comments are told apart only by being comments, processing instructions by their targets."
 },
 "C123": {
  "note": "Strengthens C110 (at most one element) for lists. Selected attributes and texts, and the root, raise (TypeError, AttributeError) and are covered by the first alternative. Comments and processing instructions are elements here, as in lxml."
 },
 "C124": {
  "note": "NameError is Python's UnboundLocalError. The theorems bound the exceptions; when the statements succeed is said by C12-C36, C120 and C123. Examples beside them show that each exception happens for its reason."
 },
 "C125": {
  "note": "Generalizes C23 (simple XPaths). As in C120, texts behind a child and attributes called text are left out (the code writes elsewhere), and the engine is assumed to select what the last step says. An element that has no text at all and is assigned the empty text is outside (its serialization can change from <a/> to <a></a>)."
 },
 "C126": {
  "note": "Extends C25 (one simple XPath, whole programs) to any XPath, one operation at a time. That the list reads d without the taken item afterwards depends on the XPath (a predicate such as [1] can select another item) and is not claimed; for simple XPaths it is C25/C26. A Python list would clamp insert(i) behind its end, and this code raises (stated in the theorem)."
 },
 "C127": {
  "note": "C127_alone, C127_elsewhere, C127_order, C127_finished, C127_items for statements that are local in the sense of C111 (which proves it for the fields, with C127_unused for create_<field>). Statements are atomic: threads inside of a statement (and inside lxml) are not modelled. C127_counterexample_same shows that the elements must be separate."
 },
 "C128": {
  "note": "C128_commute, from C120 and C125. Unlike C127, the objects and nodes can be inside of each other (the element's attributes and the texts of its descendants, for example), and the XPaths may look anywhere, but only assignments of texts to existing nodes are covered. C128_counterexample_created for nodes that do not exist yet. The excluded cases of C120 (texts behind a child, attributes called text) are excluded."
 },
 "C129": {
  "note": "C129_refused_text, C129_item, C129_stops (any XPath); C129_inside, C129_behind, C129_extend (one child step, kinds and documents as in C25). List assignments are not atomic, and append is not: a new item that has been created stays when its value is refused (as C75 says for fields)."
 },
 "C130": {
  "note": "Spec.While is Python's loop without a limit on the rounds; C130_determined: a loop has one result; C130_ends: the trimming loop ends, within as many rounds as the document has nodes, and the model's program gives its result; C130_assign: an assignment that succeeds is the assignments of the values followed by this loop; C130_length, C130_empty: the list afterwards. The example is the list a[1]. The XPath engine is any function of the document that ends."
 },
 "C131": {
  "note": "C131_history: sequences of operations, assignments and deletions; C131_emptied: the document afterwards; C131_same, C131_del_is_assign_nil. False for other XPaths: C131_counterexample_position (with a[1], del takes out one element, assigning [] all of them)."
 },
 "C132": {
  "note": "Completes C24 (single fields), C96 (obj.list = obj.list with child steps), C125 (lists of values given as Python lists) and C109 (other orders, child steps). Elements: what the XPath selects is an element with a parent, for which the mapper makes an object. C132_self, C132_copy, C132_item, C132_prefix (in terms of Trims, see C130), C132_more, C132_self_values. In the model the object for an element is the element's place in the document (ElemVal.own)."
 },
 "C133": {
  "note": "TakenMany is the chain of items that are taken out, in terms of Selects, Yields and TakenOut (see C123). C133_clear (the values of the items of del are those at the start, see listDeleteAll), C133_trim (Trims: see C130), C133_nodes. three_rounds: the list a[1] of one item, for which assigning [] makes three rounds."
 }
}