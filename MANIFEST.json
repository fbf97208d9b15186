{
 "claims": [
  {
   "property": "C01",
   "status": "partial",
   "theorems": [
    "Verif.Props.Base64.C01_partial",
    "Verif.Props.Base64.C01_exact",
    "Verif.Props.Base64.C01_violated",
    "Verif.Props.Base64.C01_completes",
    "Verif.Props.Base64.C01_decode_skips_junk"
   ],
   "note": "False of the code for inputs whose short final group ends in NUL; C01_exact says what happens for every input."
  },
  {
   "property": "C02",
   "status": "partial",
   "theorems": [
    "Verif.Props.Base64.C02_partial",
    "Verif.Props.Base64.C02_room",
    "Verif.Props.Base64.C02_violated"
   ],
   "note": "False of the code for inputs whose short final group ends in NUL."
  },
  {
   "property": "C03",
   "status": "proved",
   "theorems": [
    "Verif.Props.Unicode.C03_rot13",
    "Verif.Props.Unicode.C03_involution",
    "Verif.Props.Unicode.C03_total"
   ],
   "note": ""
  },
  {
   "property": "C04",
   "status": "proved",
   "theorems": [
    "Verif.Props.Base64.C04_base64",
    "Verif.Props.Unicode.C04_decoders",
    "Verif.Props.Unicode.C04_encoders",
    "Verif.Props.Unicode.C04_interrupted"
   ],
   "note": "All facets."
  },
  {
   "property": "C05",
   "status": "proved",
   "theorems": [
    "Verif.Props.Unicode.C05_encode",
    "Verif.Props.Unicode.C05_decode",
    "Verif.Props.Unicode.C05_round_trip",
    "Verif.Props.Unicode.C05_completes",
    "Verif.Props.Unicode.C05_non_bmp"
   ],
   "note": ""
  },
  {
   "property": "C06",
   "status": "proved",
   "theorems": [
    "Verif.Props.Unicode.C06_encode",
    "Verif.Props.Unicode.C06_round_trip",
    "Verif.Props.Unicode.C06_orders",
    "Verif.Props.Unicode.C06_completes"
   ],
   "note": ""
  },
  {
   "property": "C07",
   "status": "proved",
   "theorems": [
    "Verif.Props.Unicode.C07_encode",
    "Verif.Props.Unicode.C07_round_trip",
    "Verif.Props.Unicode.C07_completes",
    "Verif.Props.Unicode.C07_unmappable"
   ],
   "note": ""
  },
  {
   "property": "C08",
   "status": "partial",
   "theorems": [
    "Verif.Props.Unicode.C08_ucs2",
    "Verif.Props.Unicode.C08_iso_partial",
    "Verif.Props.Unicode.C08_iso_violated",
    "Verif.Props.Unicode.C08_iso_last"
   ],
   "note": "Proved for the UCS-2 decoder; false for the ISO-8859-1 decoder on truncated input."
  },
  {
   "property": "C09",
   "status": "proved",
   "theorems": [
    "Verif.Props.Names.C09_classes",
    "Verif.Props.Names.C09_negative"
   ],
   "note": ""
  },
  {
   "property": "C10",
   "status": "partial",
   "theorems": [
    "Verif.Props.Names.C10_ncname",
    "Verif.Props.Names.C10_qname",
    "Verif.Props.Names.C10_parse",
    "Verif.Props.Names.C10_ascii_bytes",
    "Verif.Props.Names.C10_bytes_violated",
    "Verif.Props.Names.C10_equality",
    "Verif.Props.Names.C10_clark"
   ],
   "note": "Holds for wide strings and for ASCII narrow strings; false for UTF-8 narrow strings with other characters."
  },
  {
   "property": "C11",
   "status": "proved",
   "theorems": [
    "Verif.Props.Text.C11_text",
    "Verif.Props.Text.C11_attribute",
    "Verif.Props.Text.C11_injective"
   ],
   "note": ""
  },
  {
   "property": "C12",
   "status": "proved",
   "theorems": [
    "Verif.Props.Text.C12_words",
    "Verif.Props.Text.C12_words_spec",
    "Verif.Props.Text.C12_idempotent",
    "Verif.Props.Text.C12_trimmed"
   ],
   "note": ""
  },
  {
   "property": "C13",
   "status": "partial",
   "theorems": [
    "Verif.Props.Uri.C13_authority",
    "Verif.Props.Uri.C13_other_scheme",
    "Verif.Props.Uri.C13_empty",
    "Verif.Props.Uri.C13_keeps",
    "Verif.Props.Uri.C13_rooted",
    "Verif.Props.Uri.C13_exact",
    "Verif.Props.Uri.C13_partial",
    "Verif.Props.Uri.C13_forms",
    "Verif.Props.Uri.C13_total",
    "Verif.Props.Uri.C13_violated_dot",
    "Verif.Props.Uri.C13_violated_last",
    "Verif.Props.Uri.C13_violated_network",
    "Verif.Props.Uri.C13_ub",
    "Verif.Props.Uri.C13_violated_throws"
   ],
   "note": "C13_exact gives the path for every base with an absolute path; false of the code for './' before '../', a final '.' or '..', network references, and bases without a path."
  },
  {
   "property": "C14",
   "status": "partial",
   "theorems": [
    "Verif.Props.Uri.C14_partial",
    "Verif.Props.Uri.C14_host",
    "Verif.Props.Uri.C14_relative",
    "Verif.Props.Uri.C14_violated"
   ],
   "note": "False of the code for a port without a host, drive letters and empty authorities."
  },
  {
   "property": "C15",
   "status": "partial",
   "theorems": [
    "Verif.Props.Dom.C15_forest_partial",
    "Verif.Props.Dom.C15_owner_partial",
    "Verif.Props.Dom.C15_violated"
   ],
   "note": "Holds for all histories except those where a document is inserted into itself, which the code accepts."
  },
  {
   "property": "C16",
   "status": "partial",
   "theorems": [
    "Verif.Props.Dom.C16_insert",
    "Verif.Props.Dom.C16_append",
    "Verif.Props.Dom.C16_insert_fragment",
    "Verif.Props.Dom.C16_replace",
    "Verif.Props.Dom.C16_replace_fragment",
    "Verif.Props.Dom.C16_remove",
    "Verif.Props.Dom.C16_insert_succeeds_iff",
    "Verif.Props.Dom.C16_replace_succeeds_iff",
    "Verif.Props.Dom.C16_remove_succeeds_iff",
    "Verif.Props.Dom.C16_ends_partial",
    "Verif.Props.Dom.C16_ends_violated"
   ],
   "note": "The effect of every successful call, and exactly when calls succeed; a fragment appended to itself loops for ever."
  },
  {
   "property": "C17",
   "status": "partial",
   "theorems": [
    "Verif.Props.Dom.C17_insert_partial",
    "Verif.Props.Dom.C17_replace_partial",
    "Verif.Props.Dom.C17_remove",
    "Verif.Props.Dom.C17_purge",
    "Verif.Props.Dom.C17_violated_insert_self",
    "Verif.Props.Dom.C17_violated_insert_absent",
    "Verif.Props.Dom.C17_violated_replace_self",
    "Verif.Props.Dom.C17_violated_fragment"
   ],
   "note": "False of the code when the reference child is absent or is the new child itself, and for fragments."
  },
  {
   "property": "C18",
   "status": "partial",
   "theorems": [
    "Verif.Props.Dom.C18_one_root",
    "Verif.Props.Dom.C18_document_element_partial",
    "Verif.Props.Dom.C18_violated_replace",
    "Verif.Props.Dom.C18_violated_purge"
   ],
   "note": "At most one root element always; getDocumentElement is stale after the root is purged or replaced by a node that is no element."
  },
  {
   "property": "C19",
   "status": "proved",
   "theorems": [
    "Verif.Props.DomText.C19_normalize",
    "Verif.Props.DomText.C19_ends"
   ],
   "note": "For every node; the attributes of elements are trees of their own."
  },
  {
   "property": "C20",
   "status": "partial",
   "theorems": [
    "Verif.Props.AttrMap.C20_names_partial",
    "Verif.Props.AttrMap.C20_namespaces_partial",
    "Verif.Props.AttrMap.C20_mixed_partial",
    "Verif.Props.AttrMap.C20_violated_names",
    "Verif.Props.AttrMap.C20_violated_owner",
    "Verif.Props.AttrMap.C20_violated_document",
    "Verif.Props.AttrMap.C20_violated_local"
   ],
   "note": "Every history by node names, every history by expanded names, and mixed histories if the two go together one to one; false of the code for attributes of other documents, attributes removed twice, two attributes of one node name, and attributes without local name set by namespace. Document types with default attributes are not modelled."
  },
  {
   "property": "C21",
   "status": "proved",
   "theorems": [
    "Verif.Props.DomText.C21_substring",
    "Verif.Props.DomText.C21_set_append",
    "Verif.Props.DomText.C21_insert",
    "Verif.Props.DomText.C21_delete",
    "Verif.Props.DomText.C21_replace"
   ],
   "note": "Lengths fit an int."
  },
  {
   "property": "C22",
   "status": "partial",
   "theorems": [
    "Verif.Props.DomText.C22_split_partial",
    "Verif.Props.DomText.C22_refused",
    "Verif.Props.DomText.C22_violated_loose",
    "Verif.Props.DomText.C22_violated_cdata"
   ],
   "note": "Holds for nodes with a parent; without one the new node of a text node is lost and a CDATA section dereferences null."
  },
  {
   "property": "C23",
   "status": "partial",
   "theorems": [
    "Verif.Props.TagList.C23_getLength_partial",
    "Verif.Props.TagList.C23_item_partial",
    "Verif.Props.TagList.C23_item_node",
    "Verif.Props.TagList.C23_unique",
    "Verif.Props.TagList.C23_violated_grown",
    "Verif.Props.TagList.C23_violated_shrunk",
    "Verif.Props.TagList.C23_violated_prefix",
    "Verif.Props.TagList.C23_violated_entityReference",
    "Verif.Props.TagList.C23_violated_noNamespace"
   ],
   "note": "For every history: getLength is right, item is right after it, and a node item gives is the right one; item before getLength may give null or read past the end; elements inside entity references, renamed by setPrefix or without namespace are missed. Histories of fewer than 2^64 edits."
  },
  {
   "property": "C24",
   "status": "partial",
   "theorems": [
    "Verif.Props.TreeWalker.C24_nextNode_partial",
    "Verif.Props.TreeWalker.C24_next_partial",
    "Verif.Props.TreeWalker.C24_firstChild_partial",
    "Verif.Props.TreeWalker.C24_lastChild_partial",
    "Verif.Props.TreeWalker.C24_previousSibling_partial",
    "Verif.Props.TreeWalker.C24_parent_partial",
    "Verif.Props.TreeWalker.C24_stays",
    "Verif.Props.TreeWalker.C24_violated_nextSibling",
    "Verif.Props.TreeWalker.C24_violated_nextSibling_example",
    "Verif.Props.TreeWalker.C24_violated_previousNode_parent",
    "Verif.Props.TreeWalker.C24_violated_previousNode_descends",
    "Verif.Props.TreeWalker.C24_violated_parent",
    "Verif.Props.TreeWalker.C24_violated_entity"
   ],
   "note": "nextNode, firstChild, lastChild, previousSibling and parentNode for all trees and filters, but for unexpanded entity references that are skipped, and the root as a parent; nextSibling and previousNode are false of the code."
  },
  {
   "property": "C25",
   "status": "partial",
   "theorems": [
    "Verif.Props.Clone.C25_clone_apart",
    "Verif.Props.Clone.C25_import_apart",
    "Verif.Props.Clone.C25_document_apart",
    "Verif.Props.Clone.C25_clone_equal_partial",
    "Verif.Props.Clone.C25_import_equal_partial",
    "Verif.Props.Clone.C25_document_equal_partial",
    "Verif.Props.Clone.C25_violated_attribute",
    "Verif.Props.Clone.C25_violated_namespace",
    "Verif.Props.Clone.C25_violated_pi",
    "Verif.Props.Clone.C25_violated_reference",
    "Verif.Props.Clone.C25_violated_document"
   ],
   "note": "After every history copies are new nodes apart from everything there was, and show what the originals show if nothing listed in the specification is in the way; false of the code for attributes alike in one of their two names, names like p:, changed instructions, entity references made early, and documents with entities or with the document type not first."
  },
  {
   "property": "C26",
   "status": "partial",
   "theorems": [
    "Verif.Props.Events.C26_registered_partial",
    "Verif.Props.Events.C26_dispatch_partial",
    "Verif.Props.Events.C26_unstopped",
    "Verif.Props.Events.C26_once",
    "Verif.Props.Events.C26_violated_remove",
    "Verif.Props.Events.C26_violated_target",
    "Verif.Props.Events.C26_violated_cancelable"
   ],
   "note": "The order is right, and events that can be cancelled are stopped, except by the target's listeners; only the first listener can be removed. Listeners that change the registrations while they run are not modelled, and no node of the Simple DOM is an event target."
  },
  {
   "property": "C27",
   "status": "partial",
   "theorems": [
    "Verif.Props.Sax.C27_exact",
    "Verif.Props.Sax.C27_partial",
    "Verif.Props.Sax.C27_violated",
    "Verif.Props.Sax.C27_restore",
    "Verif.Props.Sax.C27_xml"
   ],
   "note": "C27_exact covers every history; false of the code only where one context declares a prefix twice (the first wins)."
  },
  {
   "property": "C28",
   "status": "partial",
   "theorems": [
    "Verif.Props.Sax.C28_partial",
    "Verif.Props.Sax.C28_violated",
    "Verif.Props.Sax.C28_prefixes",
    "Verif.Props.Sax.C28_found",
    "Verif.Props.Sax.C28_declared"
   ],
   "note": "False of the code under shadowing."
  },
  {
   "property": "C29",
   "status": "proved",
   "theorems": [
    "Verif.Props.Sax.C29_edit",
    "Verif.Props.Sax.C29_setter",
    "Verif.Props.Sax.C29_getters",
    "Verif.Props.Sax.C29_index",
    "Verif.Props.Sax.C29_indexQ",
    "Verif.Props.Sax.C29_lookup",
    "Verif.Props.Sax.C29_addOrReplace",
    "Verif.Props.Sax.C29_violated"
   ],
   "note": "Add, set, replace, remove, getters and lookups; C29_violated records that setting a list from itself empties it, which is outside the quantifier."
  },
  {
   "property": "C30",
   "status": "partial",
   "theorems": [
    "Verif.Props.SaxFilter.C30_every_stream",
    "Verif.Props.SaxFilter.C30_partial",
    "Verif.Props.SaxFilter.C30_violated_mapping",
    "Verif.Props.SaxFilter.C30_violated_entity"
   ],
   "note": "The character data and the other events are kept in order for every stream, and exactly in place if text is always followed by an event that delivers it; a prefix mapping, skipped entity or end of document overtakes the text before it."
  },
  {
   "property": "C31",
   "status": "partial",
   "theorems": [
    "Verif.Props.Writer.C31_partial",
    "Verif.Props.Writer.C31_indented_partial",
    "Verif.Props.Writer.C31_violated_indent",
    "Verif.Props.Writer.C31_violated_cdata",
    "Verif.Props.Writer.C31_violated_comment"
   ],
   "note": "Exact with indent 0, up to white space with any indent, for streams without document type whose comments, CDATA sections and instructions XML can hold; the default indent changes text, and the writer does not guard against ]]> and --."
  },
  {
   "property": "C32",
   "status": "partial",
   "theorems": [
    "Verif.Props.Sax.C32_partial",
    "Verif.Props.Sax.C32_violated_tracker",
    "Verif.Props.Sax.C32_violated_ub"
   ],
   "note": "Proved for XMLBaseSupport with the document location set first; false of the tracking filter."
  },
  {
   "property": "C33",
   "status": "partial",
   "theorems": [
    "Verif.Props.Sax2Dom.C33_partial",
    "Verif.Props.Sax2Dom.C33_violated_comment",
    "Verif.Props.Sax2Dom.C33_violated_cdata",
    "Verif.Props.Sax2Dom.C33_violated_nested",
    "Verif.Props.Sax2Dom.C33_violated_twice",
    "Verif.Props.Sax2Dom.C33_violated_later",
    "Verif.Props.Sax2Dom.C33_violated_parameter",
    "Verif.Props.Sax2Dom.C33_violated_reuse",
    "Verif.Props.Sax2Dom.C33_violated_null"
   ],
   "note": "Every well formed document, with references to internal entities without markup, after every history of the DOM and with any parser that knows no entities yet; false of the code for comments and parameter entities in the document type, references in entities, empty CDATA sections, parsers used again, and elements the DOM refuses. Default attributes and internal entities with markup are not modelled."
  },
  {
   "property": "C34",
   "status": "partial",
   "theorems": [
    "Verif.Props.DomStream.C34_partial",
    "Verif.Props.DomStream.C34_violated"
   ],
   "note": "Holds for data with at most one ]]>; false of the code with two."
  },
  {
   "property": "C35",
   "status": "partial",
   "theorems": [
    "Verif.Props.XPathAxes.C35_partial",
    "Verif.Props.XPathAxes.C35_partition",
    "Verif.Props.XPathAxes.C35_namespace_complete",
    "Verif.Props.XPathAxes.C35_namespace_partial",
    "Verif.Props.XPathAxes.C35_violated_child_of_attribute",
    "Verif.Props.XPathAxes.C35_violated_following_in_fragment",
    "Verif.Props.XPathAxes.C35_violated_preceding_split_text",
    "Verif.Props.XPathAxes.C35_violated_doctype",
    "Verif.Props.XPathAxes.C35_violated_namespace_redeclared",
    "Verif.Props.XPathAxes.C35_violated_namespace_of_text"
   ],
   "note": "All axes of all nodes of all trees without document type and entity reference nodes are right but for: child of an attribute, following outside a document, preceding with split text, redeclared namespaces; each of these is false of the code."
  },
  {
   "property": "C36",
   "status": "partial",
   "theorems": [
    "Verif.Props.XPathNodeSet.C36_partial",
    "Verif.Props.XPathNodeSet.C36_tree",
    "Verif.Props.XPathNodeSet.C36_violated_fragments",
    "Verif.Props.XPathNodeSet.C36_violated_fragments_example",
    "Verif.Props.XPathNodeSet.C36_violated_attributes",
    "Verif.Props.XPathNodeSet.C36_violated_children"
   ],
   "note": "Holds within documents and with one fragment per document, below 1000 attributes per element and 2147484 children per node; false of the code otherwise."
  },
  {
   "property": "C37",
   "status": "partial",
   "theorems": [
    "Verif.Props.XPathNodeSet.C37_partial",
    "Verif.Props.XPathNodeSet.C37_once",
    "Verif.Props.XPathNodeSet.C37_union_partial",
    "Verif.Props.XPathNodeSet.C37_violated_union"
   ],
   "note": "Holds for every history of calls and every std::sort, on the nodes C36 holds for; a union with an empty set is not brought into document order."
  },
  {
   "property": "C38",
   "status": "proved",
   "theorems": [
    "Verif.Props.XPathPath.C38",
    "Verif.Props.XPathPath.C38_divide",
    "Verif.Props.XPathPath.C38_text",
    "Verif.Props.XPathPath.C38_value"
   ],
   "note": "Also for trees with document types and entity references."
  },
  {
   "property": "C39",
   "status": "partial",
   "theorems": [
    "Verif.Props.XPathValue.C39_equal",
    "Verif.Props.XPathValue.C39_not_equal",
    "Verif.Props.XPathValue.C39_less_partial",
    "Verif.Props.XPathValue.C39_violated_empty",
    "Verif.Props.XPathValue.C39_violated_boolean",
    "Verif.Props.XPathValue.C39_logic"
   ],
   "note": "Equality and inequality for all values; the order comparisons are false of the code for two node-sets one of which is empty, and node-sets against booleans."
  },
  {
   "property": "C40",
   "status": "partial",
   "theorems": [
    "Verif.Props.XPathValue.C40_contains",
    "Verif.Props.XPathValue.C40_before",
    "Verif.Props.XPathValue.C40_after",
    "Verif.Props.XPathValue.C40_simple",
    "Verif.Props.XPathValue.C40_substring_partial",
    "Verif.Props.XPathValue.C40_round_unique",
    "Verif.Props.XPathValue.C40_violated_beyond",
    "Verif.Props.XPathValue.C40_violated_infinite",
    "Verif.Props.XPathValue.C40_translate_partial",
    "Verif.Props.XPathValue.C40_violated_translate",
    "Verif.Props.XPathValue.C40_violated_length"
   ],
   "note": "False of the code for substring starting beyond the end or at an infinity, translate with deletions, and string-length of narrow strings."
  },
  {
   "property": "C41",
   "status": "proved",
   "theorems": [
    "Verif.Props.XPathPath.C41",
    "Verif.Props.XPathPath.C41_unique",
    "Verif.Props.XPathPath.C41_number",
    "Verif.Props.XPathPath.C41_other_number",
    "Verif.Props.XPathPath.C41_last",
    "Verif.Props.XPathPath.C41_step",
    "Verif.Props.XPathPath.C41_test",
    "Verif.Props.XPathPath.C41_filter"
   ],
   "note": "A predicate is any function from node, position and size to a value; expressions themselves are not evaluated here."
  },
  {
   "property": "C42",
   "status": "partial",
   "theorems": [
    "Verif.Props.XPathPath.C42_partial",
    "Verif.Props.XPathPath.C42_regular",
    "Verif.Props.XPathPath.C42_absolute_partial",
    "Verif.Props.XPathPath.C42_filter_partial",
    "Verif.Props.XPathPath.C42_violated_reverse",
    "Verif.Props.XPathPath.C42_violated_filter",
    "Verif.Props.XPathPath.C42_violated_absolute"
   ],
   "note": "Exactly the nodes reachable, each once, on the axes C35 and trees C36 hold for; the order is reversed after a reverse axis and after two predicates on a filter expression, and absolute paths in a fragment start at the owner document."
  },
  {
   "property": "C43",
   "status": "partial",
   "theorems": [
    "Verif.Props.XPathValue.C43_rounding",
    "Verif.Props.XPathValue.C43_partial",
    "Verif.Props.XPathValue.C43_nan",
    "Verif.Props.XPathValue.C43_violated"
   ],
   "note": "floor, ceiling and round for all numbers; mod for integers in range; false of the code for fractions and undefined for zero and infinite operands."
  },
  {
   "property": "C44",
   "status": "proved",
   "theorems": [
    "Verif.Props.XsltPrecedence.C44_order",
    "Verif.Props.XsltPrecedence.C44_imports",
    "Verif.Props.XsltPrecedence.C44_descendant"
   ],
   "note": "Included files are part of the including stylesheet."
  },
  {
   "property": "C45",
   "status": "proved",
   "theorems": [
    "Verif.Props.XsltTemplates.C45_select",
    "Verif.Props.XsltTemplates.C45_unique"
   ],
   "note": "Patterns are arbitrary sets of nodes; the order of templates is the order they are read in."
  },
  {
   "property": "C46",
   "status": "proved",
   "theorems": [
    "Verif.Props.XsltSort.C46_sort",
    "Verif.Props.XsltSort.C46_order"
   ],
   "note": "std::stable_sort is modelled by a merge sort over the comparator."
  },
  {
   "property": "C47",
   "status": "partial",
   "theorems": [
    "Verif.Props.XsltVariables.C47_partial",
    "Verif.Props.XsltVariables.C47_globals",
    "Verif.Props.XsltVariables.C47_set_partial",
    "Verif.Props.XsltVariables.C47_violated_leak",
    "Verif.Props.XsltVariables.C47_violated_twice",
    "Verif.Props.XsltVariables.C47_violated_with_param",
    "Verif.Props.XsltVariables.C47_violated_set"
   ],
   "note": "Holds for stylesheets without variables directly in xsl:copy, comments, processing instructions and messages, and without calls in later with-params; false of the code otherwise."
  },
  {
   "property": "C48",
   "status": "partial",
   "theorems": [
    "Verif.Props.XsltOutput.C48_partial",
    "Verif.Props.XsltOutput.C48_violated"
   ],
   "note": "Holds for stylesheets in which every prefix always means the same namespace; false of the code otherwise and for copied attributes."
  },
  {
   "property": "C49",
   "status": "proved",
   "theorems": [
    "Verif.Props.XsltOutput.C49_comment",
    "Verif.Props.XsltOutput.C49_pi",
    "Verif.Props.XsltOutput.C49_output"
   ],
   "note": ""
  },
  {
   "property": "C50",
   "status": "proved",
   "theorems": [
    "Verif.Props.Taggle.C50",
    "Verif.Props.Taggle.C50_element"
   ],
   "note": "For every schema, sequence of scanner calls and set of features."
  },
  {
   "property": "C51",
   "status": "partial",
   "theorems": [
    "Verif.Props.Unicode.C51_partial",
    "Verif.Props.Unicode.C51_violated"
   ],
   "note": "False for truncated multi-byte input."
  },
  {
   "property": "C52",
   "status": "partial",
   "theorems": [
    "Verif.Props.Unicode.C52_partial",
    "Verif.Props.Unicode.C52_violated"
   ],
   "note": "False of the code: do_length takes a maximum where a minimum is meant."
  },
  {
   "property": "C53",
   "status": "partial",
   "theorems": [
    "Verif.Props.Text.C53_partial",
    "Verif.Props.Text.C53_attribute",
    "Verif.Props.Text.C53_violated"
   ],
   "note": "Holds for attribute values and text without carriage returns; a carriage return in text is written raw."
  },
  {
   "property": "C54",
   "status": "partial",
   "theorems": [
    "Verif.Props.Dom.C54_destroyed",
    "Verif.Props.Dom.C54_destroyed_all_partial",
    "Verif.Props.Dom.C54_no_dangling",
    "Verif.Props.Dom.C54_purge",
    "Verif.Props.Dom.C54_violated_doctype"
   ],
   "note": "Nothing is deleted twice; everything is deleted but document types whose insertion failed and the new node of a splitText of a parentless text node."
  },
  {
   "property": "C55",
   "status": "proved",
   "theorems": [
    "Verif.Props.XsltOutput.C55_nodes",
    "Verif.Props.XsltOutput.C55_ends"
   ],
   "note": "Copied attributes, which are no instructions' content, are left out."
  },
  {
   "property": "C56",
   "status": "proved",
   "theorems": [
    "Verif.Props.XsltOutput.C56_cdata"
   ],
   "note": "As events; how a sink writes a section is C34 and the like."
  },
  {
   "property": "C57",
   "status": "partial",
   "theorems": [
    "Verif.Props.XsltTemplates.C57_partial",
    "Verif.Props.XsltTemplates.C57_chooses",
    "Verif.Props.XsltTemplates.C57_violated"
   ],
   "note": "Holds if no body uses apply-imports twice or after an apply-templates; false of the code otherwise."
  },
  {
   "property": "C58",
   "status": "partial",
   "theorems": [
    "Verif.Props.XsltTemplates.C58_call",
    "Verif.Props.XsltTemplates.C58_refused",
    "Verif.Props.XsltTemplates.C58_violated"
   ],
   "note": "The template run is right and only duplicates are refused; some duplicates are not."
  },
  {
   "property": "C59",
   "status": "partial",
   "theorems": [
    "Verif.Props.XsltVariables.C59_partial",
    "Verif.Props.XsltVariables.C59_sound",
    "Verif.Props.XsltVariables.C59_violated"
   ],
   "note": "Holds for references in select expressions and directly in content; a circle through a template is not detected."
  },
  {
   "property": "C60",
   "status": "partial",
   "theorems": [
    "Verif.Props.SaxFilter.C60_partial",
    "Verif.Props.SaxFilter.C60_violated_backslash",
    "Verif.Props.SaxFilter.C60_violated_instruction"
   ],
   "note": "Holds for data without backslashes and instructions without line feeds; false of the code otherwise."
  },
  {
   "property": "C61",
   "status": "partial",
   "theorems": [
    "Verif.Props.SaxFilter.C61_event",
    "Verif.Props.SaxFilter.C61_partial",
    "Verif.Props.SaxFilter.C61_violated"
   ],
   "note": "Holds behind the text coalescer; on its own the result depends on how the text is cut."
  },
  {
   "property": "C62",
   "status": "proved",
   "theorems": [
    "Verif.Props.SaxFilter.C62_tracker"
   ],
   "note": "For streams that announce mappings before the element they belong to."
  },
  {
   "property": "C63",
   "status": "partial",
   "theorems": [
    "Verif.Props.DomStream.C63_partial",
    "Verif.Props.DomStream.C63_violated_none",
    "Verif.Props.DomStream.C63_violated_attribute",
    "Verif.Props.DomStream.C63_violated_hidden",
    "Verif.Props.DomStream.C63_violated_twice",
    "Verif.Props.DomStream.C63_violated_generated"
   ],
   "note": "Holds for all trees in which namespaces and prefixes go together one to one; false of the code if a prefix stands for two namespaces, if attributes are in the default namespace, or elements are in none below one."
  },
  {
   "property": "C64",
   "status": "partial",
   "theorems": [
    "Verif.Props.DomNames.C64_characters",
    "Verif.Props.DomNames.C64_element_partial",
    "Verif.Props.DomNames.C64_attribute_partial",
    "Verif.Props.DomNames.C64_violated_start",
    "Verif.Props.DomNames.C64_violated_qualified",
    "Verif.Props.DomNames.C64_violated_bytes"
   ],
   "note": "Exact for qualified names; for other strings only the characters are checked, so names may start with any name character and have any colons. With byte strings no character outside ASCII is accepted."
  },
  {
   "property": "C65",
   "status": "proved",
   "theorems": [
    "Verif.Props.Taggle.C65",
    "Verif.Props.Taggle.C65_schema",
    "Verif.Props.Taggle.html_parents_known",
    "Verif.Props.Taggle.html_attributes_known"
   ],
   "note": "Every string of bytes and every set of features with the HTML schema and scanner, with bounds on the turns of both loops; the parser alone for every schema that gives each element a place."
  },
  {
   "property": "C66",
   "status": "partial",
   "theorems": [
    "Verif.Props.Taggle.C66_partial",
    "Verif.Props.Taggle.C66_names",
    "Verif.Props.Taggle.C66_violated_value",
    "Verif.Props.Taggle.C66_violated_prefix"
   ],
   "note": "Names, sets of attributes, comments and processing instructions, for every string of bytes; attribute values may hold characters XML does not allow, and a prefix may be declared twice for one element."
  },
  {
   "property": "C67",
   "status": "partial",
   "theorems": [
    "Verif.Props.Taggle.C67_calls",
    "Verif.Props.Taggle.C67_partial",
    "Verif.Props.Taggle.C67_all_partial",
    "Verif.Props.Taggle.C67_violated_reference",
    "Verif.Props.Taggle.C67_violated_cdata"
   ],
   "note": "For every schema and all calls of the scanner, and for sources without markup whose references are to printable ASCII characters; other references and some CDATA sections are lost."
  },
  {
   "property": "C68",
   "status": "partial",
   "theorems": [
    "Verif.Props.Taggle.C68_partial",
    "Verif.Props.Taggle.C68_violated_identifiers",
    "Verif.Props.Taggle.C68_violated_second"
   ],
   "note": "Holds for declarations without identifiers in the first document; false of the code otherwise."
  },
  {
   "property": "C69",
   "status": "partial",
   "theorems": [
    "Verif.Props.Expat.C69_exact",
    "Verif.Props.Expat.C69_partial",
    "Verif.Props.Expat.C69_ends_partial",
    "Verif.Props.Expat.C69_no_namespaces",
    "Verif.Props.Expat.C69_violated_end",
    "Verif.Props.Expat.C69_violated_twice",
    "Verif.Props.Expat.C69_violated_xmlnsfoo",
    "Verif.Props.Expat.C69_violated_xml",
    "Verif.Props.Expat.C69_violated_reuse"
   ],
   "note": "All documents that keep to the rules of namespaces, over Expat's callbacks: the exact events, which are those of SAX but for the ends of mappings; false of the code for these, for attributes that begin with xmlns, for declarations of xml, and for readers used again after an error."
  },
  {
   "property": "C70",
   "status": "partial",
   "theorems": [
    "Verif.Props.XPathParse.C70_partial",
    "Verif.Props.XPathParse.C70_unambiguous_partial",
    "Verif.Props.XPathParse.C70_violated_minus",
    "Verif.Props.XPathParse.C70_violated_dots",
    "Verif.Props.XPathParse.C70_violated_target",
    "Verif.Props.XPathParse.C70_violated_argument",
    "Verif.Props.XPathParse.C70_violated_root",
    "Verif.Props.XPathParse.C70_violated_name"
   ],
   "note": "All expressions of the grammar with ASCII names and bound prefixes, with any white space but where the code allows none; false of the code for that white space, for a literal after processing-instruction() among arguments, for a path from a bracketed /, and strings like 'a orb' are accepted. Match patterns and the look up of functions and variables are not modelled."
  },
  {
   "property": "C71",
   "status": "partial",
   "theorems": [
    "Verif.Props.XPathMatch.C71_partial",
    "Verif.Props.XPathMatch.C71_violated_deep",
    "Verif.Props.XPathMatch.C71_violated_variable",
    "Verif.Props.XPathMatch.C71_violated_position",
    "Verif.Props.XPathMatch.C71_violated_attribute",
    "Verif.Props.XPathMatch.C71_violated_node",
    "Verif.Props.XPathMatch.C71_violated_detached",
    "Verif.Props.XPathMatch.C71_violated_target",
    "Verif.Props.XPathMatch.C71_violated_space",
    "Verif.Props.XPathMatch.C71_violated_id"
   ],
   "note": "All patterns without id() and key(), with any white space but where the code allows none, all documents and fragments, all values of expressions; predicates that take notice of the position show it by their form, and no node passes the tests on both sides of //. False of the code for the rest, with the witnesses named."
  },
  {
   "property": "C72",
   "status": "partial",
   "theorems": [
    "Verif.Props.XPathMatch.C72_partial",
    "Verif.Props.XPathMatch.C72_violated_space",
    "Verif.Props.XPathMatch.C72_violated_predicate"
   ],
   "note": "All patterns without white space in or after alternatives of one bare step, and without prefix or target in steps with one predicate; false of the code for these."
  },
  {
   "property": "C73",
   "status": "partial",
   "theorems": [
    "Verif.Props.XsltSink.C73_partial",
    "Verif.Props.XsltSink.C73_doctype",
    "Verif.Props.XsltSink.C73_violated_cdata",
    "Verif.Props.XsltSink.C73_violated_doctype"
   ],
   "note": "All instructions as for C48 with all settings, over a reader that does not normalise line ends; false of the code for ]]> twice in one text of a CDATA section, ]]> across two texts, and for the document type if the XML declaration is left out or the document element is not first. disable-output-escaping is not modelled."
  },
  {
   "property": "C74",
   "status": "partial",
   "theorems": [
    "Verif.Props.XsltSink.C74_partial",
    "Verif.Props.XsltSink.C74_violated"
   ],
   "note": "All instructions that copy no attributes, if no element of the result is listed in cdata-section-elements; false of the code otherwise."
  },
  {
   "property": "C75",
   "status": "partial",
   "theorems": [
    "Verif.Props.XPathEval.C75_partial",
    "Verif.Props.XPathEval.C75_unique",
    "Verif.Props.XPathEval.C75_violated_nodes",
    "Verif.Props.XPathEval.C75_violated_path",
    "Verif.Props.XPathEval.C75_violated_id",
    "Verif.Props.XPathEval.C75_violated_alone"
   ],
   "note": "From the text of any expression to its value, for expressions XPath allows, away from the faults of C35, C39, C40 and C43, in normalized documents, with exact arithmetic; without the namespace axis, id and lang. Values that are no node-sets are taken as empty ones where XPath asks for an error."
  },
  {
   "property": "C76",
   "status": "partial",
   "theorems": [
    "Verif.Props.XPathTemplate.C76_partial",
    "Verif.Props.XPathTemplate.C76_unique",
    "Verif.Props.XPathTemplate.C76_stray_partial",
    "Verif.Props.XPathTemplate.C76_violated_empty"
   ],
   "note": "All templates with at least one piece, with expressions as in C70 and C75; the empty template is refused by the code."
  },
  {
   "property": "C77",
   "status": "partial",
   "theorems": [
    "Verif.Props.XsltKey.C77_partial",
    "Verif.Props.XsltKey.C77_members_partial",
    "Verif.Props.XsltKey.C77_undeclared_partial",
    "Verif.Props.XsltKey.C77_violated_attribute",
    "Verif.Props.XsltKey.C77_violated_use",
    "Verif.Props.XsltKey.C77_violated_twice",
    "Verif.Props.XsltKey.C77_violated_current",
    "Verif.Props.XsltKey.C77_violated_document",
    "Verif.Props.XsltKey.C77_violated_stale"
   ],
   "note": "All declarations whose expressions give node-sets with distinct strings and whose patterns match no attributes, neither of which depends on the current node; all histories of calls while the documents stay the same. False of the code for the rest, with the witnesses named. Patterns and expressions are taken as functions of a node, as C71 and C75 give them."
  },
  {
   "property": "C78",
   "status": "partial",
   "theorems": [
    "Verif.Props.XsltRun.C78_partial",
    "Verif.Props.XsltRun.C78_nodes_partial",
    "Verif.Props.XsltRun.C78_names_partial",
    "Verif.Props.XsltRun.C78_fixed",
    "Verif.Props.XsltRun.C78_violated_position",
    "Verif.Props.XsltRun.C78_violated_current",
    "Verif.Props.XsltRun.C78_violated_copy_of",
    "Verif.Props.XsltRun.C78_violated_children",
    "Verif.Props.XsltRun.C78_violated_local_name",
    "Verif.Props.XsltRun.C78_violated_sort_position",
    "Verif.Props.XsltRun.C78_violated_global_position",
    "Verif.Props.XsltRun.C78_violated_sort_ties"
   ],
   "note": "All stylesheets of the modelled instructions in which nothing after an instruction that processes other nodes depends on position() or current(), xsl:copy-of and sorted loops take forward paths, sort keys do not depend on the position, global variables do not depend on the position, attributes are not asked for their children and expressions are as C75 needs them; all documents whose elements have local names, and all nodes for which the transformation ends. False of the code for the rest, with the witnesses named. Which rule is for a node is any function (C45); xsl:number, xsl:message and apply-imports (C57) are not among the instructions."
  },
  {
   "property": "C79",
   "status": "partial",
   "theorems": [
    "Verif.Props.XsltCompile.C79_partial",
    "Verif.Props.XsltCompile.C79_accepted_partial",
    "Verif.Props.XsltCompile.C79_violated_foreign_attribute",
    "Verif.Props.XsltCompile.C79_violated_current",
    "Verif.Props.XsltCompile.C79_violated_pieces",
    "Verif.Props.XsltCompile.C79_violated_space",
    "Verif.Props.XsltCompile.C79_violated_variable",
    "Verif.Props.XsltCompile.C79_violated_empty",
    "Verif.Props.XsltCompile.C79_violated_call",
    "Verif.Props.XsltCompile.C79_violated_sort",
    "Verif.Props.XsltCompile.C79_violated_bare",
    "Verif.Props.XsltCompile.C79_violated_fallback",
    "Verif.Props.XsltCompile.C79_violated_lang",
    "Verif.Props.XsltCompile.C79_violated_namespace",
    "Verif.Props.XsltCompile.C79_violated_version"
   ],
   "note": "All documents of templates, keys, global variables and parameters and all instructions but xsl:number and xsl:fallback, for any compilers of expressions, patterns and names; without attributes of other namespaces named like those of XSLT, xml:space, lang on sorts, an empty namespace, attribute sets, and white space among the pieces of a text node; current() only after the first pattern. Right documents are compiled whatever else; refusals need the mistakes the compiler does not notice to be absent. False of the code for the rest, with the witnesses named. xsl:output (C62), xsl:import and xsl:include (C57) and xsl:namespace-alias are not in it."
  },
  {
   "property": "C80",
   "status": "partial",
   "theorems": [
    "Verif.Props.XsltProcess.C80_partial"
   ],
   "note": "All stylesheet documents made of templates and variables with the instructions of C78, for all texts of expressions, patterns and templates that C70, C71, C72 and C76 are about, all documents C78 is about all nodes and all values of parameters; no keys, no lang on sorts, no content in variables, constant names in xsl:element, xsl:attribute and xsl:processing-instruction. The values of predicates in patterns and of the priority attribute are parameters. The violations of C71, C72, C76, C78 and C79 are not repeated."
  },
  {
   "property": "C81",
   "status": "partial",
   "theorems": [
    "Verif.Props.XsltDomSink.C81_partial",
    "Verif.Props.XsltDomSink.C81_bytes_partial",
    "Verif.Props.XsltDomSink.C81_empty_partial",
    "Verif.Props.XsltDomSink.C81_tree_partial",
    "Verif.Props.XsltDomSink.C81_nothing",
    "Verif.Props.XsltDomSink.C81_violated_nothing",
    "Verif.Props.XsltDomSink.C81_violated_empty",
    "Verif.Props.XsltDomSink.C81_violated_bytes",
    "Verif.Props.XsltDomSink.C81_violated_attributes"
   ],
   "note": "All nested instructions in which a prefix always means the same and names can be names (ASCII for strings of bytes), with something written and no text empty; with empty texts the tree but for empty nodes. Missing: the empty result, copied attributes, prefixes with several meanings and indentation; the witnesses show what the code does with an empty result, an empty text, non-ASCII bytes in names and two attributes with one prefix and two namespaces."
  },
  {
   "property": "C82",
   "status": "partial",
   "theorems": [
    "Verif.Props.XsltVariableContent.C82_partial",
    "Verif.Props.XsltVariableContent.C82_first",
    "Verif.Props.XsltVariableContent.C82_nodes_partial",
    "Verif.Props.XsltVariableContent.C82_nothing_partial",
    "Verif.Props.XsltVariableContent.C82_violated_string",
    "Verif.Props.XsltVariableContent.C82_violated_boolean"
   ],
   "note": "All content of C81 whose text is all in its first node, such as one element or text only; for all content of C81 that gives something the string is that of the first node, the boolean true and the nodes those of the content. False of the code for other content, with the witnesses named."
  },
  {
   "property": "C83",
   "status": "partial",
   "theorems": [
    "Verif.Props.XsltInclude.C83_partial",
    "Verif.Props.XsltInclude.C83_only_partial",
    "Verif.Props.XsltInclude.C83_ends",
    "Verif.Props.XsltInclude.C83_refused_partial",
    "Verif.Props.XsltInclude.C83_violated_base",
    "Verif.Props.XsltInclude.C83_violated_order",
    "Verif.Props.XsltInclude.C83_violated_dangling"
   ],
   "note": "All files, with any resolution of references, without xml:base on the outermost element of the first file and on xsl:include and xsl:import, both directions; refusals are exceptions if the files that are there are well-formed; compiling ends for all finite sets of files without conditions. False of the code for the rest, with the witnesses named. Declarations are numbers; xsl:include and xsl:import are only where XSLT allows them."
  },
  {
   "property": "C84",
   "status": "partial",
   "theorems": [
    "Verif.Props.ConvertAdaptor.C84_partial",
    "Verif.Props.ConvertAdaptor.C84_utf8",
    "Verif.Props.ConvertAdaptor.C84_utf8_two",
    "Verif.Props.ConvertAdaptor.C84_ascii",
    "Verif.Props.ConvertAdaptor.C84_utf16",
    "Verif.Props.ConvertAdaptor.C84_rot13",
    "Verif.Props.ConvertAdaptor.C84_iso",
    "Verif.Props.ConvertAdaptor.C84_unget_partial",
    "Verif.Props.ConvertAdaptor.C84_out",
    "Verif.Props.ConvertAdaptor.C84_out_iso",
    "Verif.Props.ConvertAdaptor.C84_out_rot13",
    "Verif.Props.ConvertAdaptor.C84_out_utf8_partial",
    "Verif.Props.ConvertAdaptor.C84_violated_iso",
    "Verif.Props.ConvertAdaptor.C84_violated_flush",
    "Verif.Props.ConvertAdaptor.C84_violated_wide",
    "Verif.Props.ConvertAdaptor.C84_violated_rot13",
    "Verif.Props.ConvertAdaptor.C84_violated_cut",
    "Verif.Props.ConvertAdaptor.C84_violated_unget"
   ],
   "note": "Reading UTF-8 and UTF-16 into wide characters and rot13, all lengths: right or undefined; exactly when it is undefined for content of one block, ASCII, UTF-16 and rot13; ISO-8859-1 to UTF-8, exactly when it is right. Putting back for characters of one byte. Writing to UTF-8, UTF-16 and rot13 without conditions, from UTF-8 if flushes are between characters. False of the code for the rest, with the witnesses named. Not modelled: conversions with a state (base64), with an error or without need to convert; reading UTF-8 as ISO-8859-1, and wide characters as UTF-8."
  },
  {
   "property": "C85",
   "status": "partial",
   "theorems": [
    "Verif.Props.SaxReader.C85_partial",
    "Verif.Props.SaxReader.C85_interfaces",
    "Verif.Props.SaxReader.C85_plain",
    "Verif.Props.SaxReader.C85_transparent_partial",
    "Verif.Props.SaxReader.C85_text_only",
    "Verif.Props.SaxReader.C85_violated_parent",
    "Verif.Props.SaxReader.C85_violated_silent"
   ],
   "note": "All chains that end in a parser, all classes of filters, all programs that while called set handlers of the outermost filter only. A chain of filters that change nothing makes no difference if all six handlers are set; it does without an error handler, and a filter without parent follows a null pointer. Not modelled: what the parser does with the answer of the entity resolver, and that it reports nothing of elements without a content handler."
  },
  {
   "property": "C86",
   "status": "partial",
   "theorems": [
    "Verif.Props.SaxReader.C86_partial",
    "Verif.Props.SaxReader.C86_history",
    "Verif.Props.SaxReader.C86_others",
    "Verif.Props.SaxReader.C86_violated_bound",
    "Verif.Props.SaxReader.C86_violated_external",
    "Verif.Props.SaxReader.C86_violated_off",
    "Verif.Props.SaxReader.C86_violated_thrown"
   ],
   "note": "All chains and features: the value set is the value on all readers of the chain, features not bound to it and other readers are unchanged; all histories of settings. False of the code for the features bound to each other, and after a handler has thrown."
  },
  {
   "property": "C87",
   "status": "partial",
   "theorems": [
    "Verif.Props.XsltAvailable.C87_element_partial",
    "Verif.Props.XsltAvailable.C87_usable_partial",
    "Verif.Props.XsltAvailable.C87_function_names",
    "Verif.Props.XsltAvailable.C87_function_partial",
    "Verif.Props.XsltAvailable.C87_bad",
    "Verif.Props.XsltAvailable.C87_property_partial",
    "Verif.Props.XsltAvailable.C87_violated_null",
    "Verif.Props.XsltAvailable.C87_violated_prefix",
    "Verif.Props.XsltAvailable.C87_violated_fallback",
    "Verif.Props.XsltAvailable.C87_violated_unparsed",
    "Verif.Props.XsltAvailable.C87_violated_missing",
    "Verif.Props.XsltAvailable.C87_violated_property"
   ],
   "note": "All strings and declarations. element-available for names in a namespace, and that it agrees with what the compiler takes but for xsl:fallback and xsl:number; function-available for all names with declared prefixes, and that it agrees with what the compiler takes but for unparsed-entity-uri; system-property if only the prefix xsl is declared for XSLT. False of the code for the rest."
  },
  {
   "property": "C88",
   "status": "partial",
   "theorems": [
    "Verif.Props.XsltAvailable.C88_partial",
    "Verif.Props.XsltAvailable.C88_violated_letter"
   ],
   "note": "All nodes that stay where they are while the transformation runs, all node-sets under the conditions of C36, with pointers printed as libstdc++ does. That an id begins with a letter is false of the code. Not modelled: namespace nodes, which are made anew each time."
  },
  {
   "property": "C89",
   "status": "partial",
   "theorems": [
    "Verif.Props.XsltAlias.C89_partial",
    "Verif.Props.XsltAlias.C89_first_partial",
    "Verif.Props.XsltAlias.C89_refused",
    "Verif.Props.XsltAlias.C89_violated_default",
    "Verif.Props.XsltAlias.C89_violated_none",
    "Verif.Props.XsltAlias.C89_violated_order",
    "Verif.Props.XsltAlias.C89_violated_clash"
   ],
   "note": "All sequences of aliases and literal result elements, with the aliases declared before each element; if all aliases come first, with all of them. False of the code for aliases declared later, for elements with an alias to #default, and for prefixes the compiler makes up. Not modelled: aliases in stylesheets that are imported, and which namespaces are declared in the result without being used."
  },
  {
   "property": "C90",
   "status": "partial",
   "theorems": [
    "Verif.Props.InputSource.C90_given",
    "Verif.Props.InputSource.C90_partial",
    "Verif.Props.InputSource.C90_file",
    "Verif.Props.InputSource.C90_file_address",
    "Verif.Props.InputSource.C90_deleted",
    "Verif.Props.InputSource.C90_violated_local",
    "Verif.Props.InputSource.C90_violated_colon",
    "Verif.Props.InputSource.C90_violated_backslash",
    "Verif.Props.InputSource.C90_violated_windows"
   ],
   "note": "All histories and file systems; addresses with a host and a path, names of files without colons and backslashes. False of the code if a resolver fails or there is none: the local file of the path is read. Not modelled: addresses with ports here (their parsing is C13's), and the search for a resolver while another thread registers one."
  },
  {
   "property": "C91",
   "status": "partial",
   "theorems": [
    "Verif.Props.InputSource.C91_partial",
    "Verif.Props.InputSource.C91_request_partial",
    "Verif.Props.InputSource.C91_violated_endless",
    "Verif.Props.InputSource.C91_violated_long",
    "Verif.Props.InputSource.C91_violated_inject"
   ],
   "note": "All header lines of up to 1022 characters and all contents. False of the code otherwise: the call never returns if the response is cut off, has lines ended by newlines alone, or has a longer line. Not modelled: sockets, connections that are refused, and the status line, which the code does not look at."
  },
  {
   "property": "C92",
   "status": "partial",
   "theorems": [
    "Verif.Props.Dtd.C92_partial",
    "Verif.Props.Dtd.C92_unique",
    "Verif.Props.Dtd.C92_violated_mixed",
    "Verif.Props.Dtd.C92_attribute_partial",
    "Verif.Props.Dtd.C92_violated_default",
    "Verif.Props.Dtd.C92_entity_partial",
    "Verif.Props.Dtd.C92_violated_parameter"
   ],
   "note": "All content models, attributes and entities as Expat hands them over. False of the code for mixed content with elements, which is reported without the bar after #PCDATA; for default values alone, which are reported as #IMPLIED; and for parameter entities, which are reported as general ones."
  },
  {
   "property": "C93",
   "status": "partial",
   "theorems": [
    "Verif.Props.Dtd.C93_partial",
    "Verif.Props.Dtd.C93_models",
    "Verif.Props.Dtd.C93_violated_default",
    "Verif.Props.Dtd.C93_violated_parameter",
    "Verif.Props.Dtd.C93_violated_empty",
    "Verif.Props.Dtd.C93_violated_quote"
   ],
   "note": "All declarations whose values are not empty and have no double quotes or markup, without parameter entities. False of the code for those. Not modelled: comments and processing instructions in a document type, and references in values."
  },
  {
   "property": "C94",
   "status": "partial",
   "theorems": [
    "Verif.Props.Socket.C94_partial",
    "Verif.Props.Socket.C94_pieces",
    "Verif.Props.Socket.C94_violated_short",
    "Verif.Props.Socket.C94_violated_end",
    "Verif.Props.Socket.C94_violated_error"
   ],
   "note": "All contents, pieces and sequences of calls; not undefined exactly if every piece after the first has at least four bytes. False of the code otherwise, for putting back after the end, and for broken connections. Not modelled: Windows, wide characters, looking up hosts."
  },
  {
   "property": "C95",
   "status": "partial",
   "theorems": [
    "Verif.Props.Socket.C95_partial",
    "Verif.Props.Socket.C95_flush",
    "Verif.Props.Socket.C95_put",
    "Verif.Props.Socket.C95_violated_part",
    "Verif.Props.Socket.C95_violated_close",
    "Verif.Props.Socket.C95_violated_closed",
    "Verif.Props.Socket.C95_violated_end"
   ],
   "note": "All sequences of calls and all schedules of sends that send everything or fail, while the connection is open. False of the code for sends that send a part, for closing without a flush, for writing when closed, and if the other end closes first."
  },
  {
   "property": "C96",
   "status": "partial",
   "theorems": [
    "Verif.Props.DefaultAttr.C96_partial",
    "Verif.Props.DefaultAttr.C96_last_partial",
    "Verif.Props.DefaultAttr.C96_removed",
    "Verif.Props.DefaultAttr.C96_violated_two",
    "Verif.Props.DefaultAttr.C96_violated_prefixed",
    "Verif.Props.DefaultAttr.C96_violated_parsed",
    "Verif.Props.DefaultAttr.C96_violated_namespace"
   ],
   "note": "All histories of calls by name and of cloning, if one attribute of the element has a declared value; with more, the same except that new elements have the last one only. False of the code for several, for names with prefixes, for what counts as specified after parsing, and for removing by namespace. Not modelled: names the element type declares that do not pass checkName; a declared value that is empty, which a DeclHandler cannot tell from none."
  },
  {
   "property": "C97",
   "status": "partial",
   "theorems": [
    "Verif.Props.IStreamHandle.C97_partial",
    "Verif.Props.IStreamHandle.C97_violated_self"
   ],
   "note": "All histories in which no handle is assigned to itself; false of the code for one that is. Not modelled: a unique_ptr that is empty, threads, exceptions thrown by new."
  },
  {
   "property": "C98",
   "status": "partial",
   "theorems": [
    "Verif.Props.ElementId.C98_partial",
    "Verif.Props.ElementId.C98_only_partial",
    "Verif.Props.ElementId.C98_null",
    "Verif.Props.ElementId.C98_violated_changed",
    "Verif.Props.ElementId.C98_violated_moved",
    "Verif.Props.ElementId.C98_violated_detached",
    "Verif.Props.ElementId.C98_violated_type",
    "Verif.Props.ElementId.C98_violated_purged"
   ],
   "note": "All histories in which nothing is purged, attributes with names of IDs are not removed nor set again, and at the end the elements that have them are in the document and of the type they are declared for; null is answered wrongly in no history without purging. False of the code without each of these. Not modelled: setAttributeNode and setAttributeNS, IDs with declared values, read only elements, calls on purged elements, new attributes in the memory of deleted ones."
  },
  {
   "property": "C99",
   "status": "partial",
   "theorems": [
    "Verif.Props.ExternalEntity.C99_partial",
    "Verif.Props.ExternalEntity.right_unique",
    "Verif.Props.ExternalEntity.C99_violated_same",
    "Verif.Props.ExternalEntity.C99_violated_documents",
    "Verif.Props.ExternalEntity.C99_violated_public",
    "Verif.Props.ExternalEntity.C99_violated_empty",
    "Verif.Props.ExternalEntity.C99_violated_parameter"
   ],
   "note": "All sequences of documents whose external entities are told apart by system identifiers that are not empty, and are not parameter entities. False of the code otherwise. Not modelled: entities that cannot be opened or are not well formed; handlers and features changed while reading; that system identifiers are passed on as written, and not resolved against that of the document."
  },
  {
   "property": "C100",
   "status": "partial",
   "theorems": [
    "Verif.Props.ParseLoop.C100_partial",
    "Verif.Props.ParseLoop.C100_libxml2_partial",
    "Verif.Props.ParseLoop.whole_content",
    "Verif.Props.ParseLoop.C100_violated_fail",
    "Verif.Props.ParseLoop.C100_violated_breaks",
    "Verif.Props.ParseLoop.C100_violated_eof",
    "Verif.Props.ParseLoop.C100_violated_throw",
    "Verif.Props.ParseLoop.C100_violated_unresolved"
   ],
   "note": "All sequences of documents from streams that can be read, with error handlers that return, for any parser. False of the code for streams that fail, break or are at their end, and after a handler has thrown; with libxml2 a missing source is not reported. Not modelled: XML_GetBuffer finding no memory, the wrappers of Xerces and MSXML."
  },
  {
   "property": "C101",
   "status": "partial",
   "theorems": [
    "Verif.Props.XsltOutputDecl.C101_partial",
    "Verif.Props.XsltOutputDecl.C101_one_partial",
    "Verif.Props.XsltOutputDecl.C101_files_partial",
    "Verif.Props.XsltOutputDecl.C101_cdata_partial",
    "Verif.Props.XsltOutputDecl.C101_errors_partial",
    "Verif.Props.XsltOutputDecl.C101_violated_missing",
    "Verif.Props.XsltOutputDecl.C101_violated_import",
    "Verif.Props.XsltOutputDecl.C101_violated_lowest",
    "Verif.Props.XsltOutputDecl.C101_violated_foreign",
    "Verif.Props.XsltOutputDecl.C101_violated_blank"
   ],
   "note": "Proved: the union of the elements with CDATA sections and what is refused, for all sequences without attributes of other namespaces that have the same local names and without blank lists; the values if the last declaration compiled has the highest precedence and gives all that the others give. Otherwise the code does not merge: what the last does not give is the default, and what is imported overrides what imports it. Not modelled: content of xsl:output; the method html as the default for results that begin with html."
  },
  {
   "property": "C102",
   "status": "partial",
   "theorems": [
    "Verif.Props.XsltMessage.C102_result_partial",
    "Verif.Props.XsltMessage.C102_messages_partial",
    "Verif.Props.XsltMessage.C102_warned_partial",
    "Verif.Props.XsltMessage.C102_lines",
    "Verif.Props.XsltMessage.C102_terminate",
    "Verif.Props.XsltMessage.C102_stops",
    "Verif.Props.XsltMessage.C102_variable_partial",
    "Verif.Props.XsltMessage.C102_violated_comment",
    "Verif.Props.XsltMessage.C102_violated_lost",
    "Verif.Props.XsltMessage.C102_violated_variable",
    "Verif.Props.XsltMessage.C102_violated_copied"
   ],
   "note": "Proved: the result is that without the messages, for all instructions, warned of or not; the error stream has the content of the messages in order, and no warnings, if all instructions stand where they may; exactly what stands where it may not is warned of, if no attributes are copied, each on a line of its own if there are no messages; exactly the terminating messages end a transformation, and nothing behind them is carried out. Warnings raised in a message go into the comment, attribute or processing instruction it makes, or are lost; in the content of a variable a warning goes through a null pointer. Not modelled: the error stream shared with the copy that the content of a variable writes to."
  }
 ]
}