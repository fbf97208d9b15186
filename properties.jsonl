{"id": "C01", "title": "base64 round trip", "statement": "Encoding any byte string with the base64 code conversion facet and decoding the result gives back the same byte string.", "quantifier": "every finite byte string, of every length and content, and every size of output buffer handed to the facet", "why_tests_cant": "the byte strings are infinitely many and the failure depends on length modulo 3 together with the value of the last byte; samples miss the trailing NUL case", "anchors": ["src/convert/base64codecvt.cpp: do_out, do_in, do_unshift, grabState, consumeOutChar", "include/convert/base64codecvt.hpp"]}
{"id": "C02", "title": "base64 output is the RFC 4648 encoding", "statement": "The characters produced by the base64 facet for a byte string are the RFC 4648 encoding of it: four characters of the standard alphabet for each three bytes, padded with '=' to a multiple of four.", "quantifier": "every finite byte string", "why_tests_cant": "agreement with the encoding table has to hold for every combination of three bytes at every position", "anchors": ["src/convert/base64codecvt.cpp: do_out, base64_charset"]}
{"id": "C03", "title": "rot13 is an involution that touches only letters", "statement": "Applying the rot13 facet twice gives back the input; every ASCII letter is rotated by 13 within its own case and every other byte is unchanged.", "quantifier": "every byte string", "why_tests_cant": "every one of the 256 table entries and every string must be right", "anchors": ["src/convert/rot13codecvt.cpp: do_in, do_out, rot13 table"]}
{"id": "C04", "title": "conversion does not depend on buffer sizes", "statement": "Feeding a code conversion facet through any sequence of output buffers, however small, and resuming after every 'partial' result, delivers in total the same output as one call with an unlimited buffer, with nothing lost or duplicated.", "quantifier": "every input and every sequence of output buffer capacities for which the conversion completes", "why_tests_cant": "the sequences of buffer boundaries are unbounded; off-by-one errors only show at particular split points", "anchors": ["src/convert/base64codecvt.cpp: do_out", "src/convert/rot13codecvt.cpp", "src/convert/impl/iso88591_utf8.cpp", "src/convert/impl/ucs2_utf8.cpp", "src/convert/impl/ucs2_utf16.cpp"]}
{"id": "C05", "title": "UCS-2 to UTF-8 and back", "statement": "Converting a string of Basic Multilingual Plane characters to UTF-8 gives exactly the Unicode UTF-8 encoding, and converting that back gives the original string.", "quantifier": "every string of 16-bit characters", "why_tests_cant": "all 65536 characters in all strings; length classes change at 0x7F/0x80, 0x7FF/0x800", "anchors": ["src/convert/impl/ucs2_utf8.cpp: ucs2_2_utf8, utf8_2_ucs2", "src/convert/utf8ucs2codecvt.cpp", "src/convert/ucs2utf8codecvt.cpp"]}
{"id": "C06", "title": "UCS-2 to UTF-16BE/LE and back", "statement": "Converting 16-bit characters to UTF-16 bytes in either byte order and back is the identity, and the two byte orders differ by swapping each pair of bytes.", "quantifier": "every string of 16-bit characters and both byte orders", "why_tests_cant": "must hold for every character and every string", "anchors": ["src/convert/impl/ucs2_utf16.cpp: utf16_2_ucs2, ucs2_2_utf16"]}
{"id": "C07", "title": "ISO-8859-1 to UTF-8 and back", "statement": "Converting any ISO-8859-1 byte string to UTF-8 gives its UTF-8 encoding, and converting that back gives the original bytes.", "quantifier": "every byte string", "why_tests_cant": "must hold for every byte and every string", "anchors": ["src/convert/impl/iso88591_utf8.cpp: iso88591_2_utf8, utf8_2_iso88591"]}
{"id": "C08", "title": "UTF-8 decoding never reads outside its input", "statement": "Given any byte buffer, the UTF-8 decoders examine only bytes inside the buffer.", "quantifier": "every byte buffer, including truncated and ill-formed sequences", "why_tests_cant": "out-of-bounds reads are undefined behaviour and usually invisible to a test run; all truncations of all lead bytes matter", "anchors": ["src/convert/impl/iso88591_utf8.cpp: utf8_2_iso88591", "src/convert/impl/ucs2_utf8.cpp: utf8_2_ucs2"]}
{"id": "C09", "title": "XML character classes", "statement": "The character class predicates (space, letter, digit, combining character, extender, name character, NCName character, character) accept exactly the code points listed in the XML 1.0 productions.", "quantifier": "every code point", "why_tests_cant": "over a million code points and some two hundred ranges, each with two boundaries", "anchors": ["src/XML/XMLCharacterClasses.cpp", "include/XML/XMLCharacterClasses.hpp"]}
{"id": "C10", "title": "NCName and QName recognition", "statement": "is_ncname and is_qname accept exactly the strings of the NCName and QName productions of Namespaces in XML, and splitting an accepted QName at its colon yields NCNames that join back to it.", "quantifier": "every string", "why_tests_cant": "recognisers range over all strings; empty parts, several colons and leading colons are the cases that slip through", "anchors": ["include/XML/strings.hpp: is_ncname, is_qname", "include/XML/QName.hpp: parseQName"]}
{"id": "C11", "title": "text escaping is faithful", "statement": "Text written through the text escaper contains no raw markup character, and replacing the entity references in it gives back the original text; the same holds for attribute values, including white space characters and quotes.", "quantifier": "every string", "why_tests_cant": "needs every string, notably those that already look like entity references", "anchors": ["include/XML/escaper.hpp: text_escaper, attribute_escaper"]}
{"id": "C12", "title": "whitespace normalisation", "statement": "normalize_whitespace returns the maximal non-space words of its argument joined by single spaces, with none at either end; it is idempotent.", "quantifier": "every string", "why_tests_cant": "all interleavings of spaces and words, including all-space and empty strings", "anchors": ["include/text/normalize_whitespace.hpp"]}
{"id": "C13", "title": "URI resolution", "statement": "Resolving a relative URI against a base keeps scheme, host and port of the base; a reference carrying its own authority replaces the base entirely; a reference starting with '/' replaces the path; otherwise the reference is taken relative to the directory of the base path with '.' and '..' segments removed.", "quantifier": "every base and every reference", "why_tests_cant": "path arithmetic on arbitrarily deep paths; too many '..' segments or an empty path run off the string", "anchors": ["src/io/uri.cpp: parse, absolutise, combinePath", "include/io/uri.hpp"]}
{"id": "C14", "title": "URI printing and parsing agree", "statement": "Printing a parsed URI and parsing the result again gives the same scheme, host, port and path.", "quantifier": "every URI string", "why_tests_cant": "all strings, including default ports, missing authorities and Windows paths", "anchors": ["src/io/uri.cpp: parse_uri, parseAuthority, as_string, port"]}
{"id": "C15", "title": "DOM tree is always a well formed forest", "statement": "After any sequence of DOM calls, successful or failing, every node in a child list has that list's owner as its parent and conversely, no node is listed twice, next and previous sibling are mutually inverse, and no node is its own ancestor.", "quantifier": "every finite history of appendChild, insertBefore, replaceChild and removeChild calls on any set of nodes, including calls that throw", "why_tests_cant": "a property of all histories; sibling pointers and parents are only corrupted by particular orders of calls", "anchors": ["include/DOM/Simple/NodeImpl.hpp: NodeImplWithChildren::do_insertBefore, do_replaceChild, do_removeChild, checkCanAdd"]}
{"id": "C16", "title": "insertion, replacement and removal edit the child list as specified", "statement": "insertBefore puts the new child (or the children of a fragment, in order) immediately before the reference child, appendChild at the end, replaceChild in the place of the old child, removeChild takes out exactly that child; the other children keep their order and the inserted node leaves its former place.", "quantifier": "every tree, parent, new child and reference child", "why_tests_cant": "all positions of new and reference child, including a node that is already a child of the same parent", "anchors": ["include/DOM/Simple/NodeImpl.hpp: do_insertBefore, do_replaceChild, do_removeChild, removeIfRequired"]}
{"id": "C17", "title": "a DOM call that fails changes nothing", "statement": "A tree-editing call that throws a DOMException leaves every child list and every parent as it was.", "quantifier": "every tree and every failing call", "why_tests_cant": "all failing calls from all reachable trees; the failure has to be detected before the first update", "anchors": ["include/DOM/Simple/NodeImpl.hpp: do_insertBefore, do_replaceChild, checkCanAdd", "include/DOM/Simple/DocumentImpl.hpp: insertBefore, replaceChild"]}
{"id": "C18", "title": "a document has at most one root element", "statement": "After any history of edits of a document's children, at most one child is an element and getDocumentElement returns it, or null if there is none.", "quantifier": "every history of edits of the document node", "why_tests_cant": "cached root pointer must agree with the child list after all histories", "anchors": ["include/DOM/Simple/DocumentImpl.hpp: insertBefore, replaceChild, removeChild, getDocumentElement"]}
{"id": "C19", "title": "normalize merges adjacent text", "statement": "After normalize no child list in the subtree has two adjacent text nodes nor an empty text node, and the concatenated text between any two other nodes is unchanged.", "quantifier": "every subtree", "why_tests_cant": "all runs of text nodes at all depths", "anchors": ["include/DOM/Simple/NodeImpl.hpp: normalize"]}
{"id": "C20", "title": "attribute maps behave as maps", "statement": "getNamedItem returns the last node set under that name and not since removed; setting a name replaces the earlier node and returns it; removing an absent name throws NOT_FOUND_ERR; the number of items is the number of distinct names.", "quantifier": "every history of set, get and remove calls", "why_tests_cant": "a property of all histories", "anchors": ["include/DOM/Simple/NamedNodeMapImpl.hpp: setNamedItem, removeNamedItem, setNode, removeNode", "include/DOM/Simple/AttrMap.hpp"]}
{"id": "C21", "title": "character data editing", "statement": "substringData, insertData, deleteData, replaceData and appendData have the effect on the character string that DOM defines, clamp counts that run past the end, and throw INDEX_SIZE_ERR exactly for a negative or too large offset or a negative count, changing nothing then.", "quantifier": "every string, offset and count", "why_tests_cant": "all integers for offset and count with all strings", "anchors": ["include/DOM/Simple/CharacterDataImpl.hpp: substringData, insertData, deleteData, replaceData, checkOffset"]}
{"id": "C22", "title": "splitText loses nothing", "statement": "Splitting a text node at a valid offset leaves two adjacent siblings whose texts concatenate to the original.", "quantifier": "every text node in every parent and every offset", "why_tests_cant": "all offsets and all positions in the parent", "anchors": ["include/DOM/Simple/TextImpl.hpp: splitText", "include/DOM/Simple/CDATASectionImpl.hpp: splitText"]}
{"id": "C23", "title": "getElementsByTagName is live and in document order", "statement": "At any moment the list returned by getElementsByTagName has as its i-th item the i-th matching element in document order, however the tree has been edited since.", "quantifier": "every history of edits interleaved with list queries", "why_tests_cant": "the cache must be refreshed after every edit before every kind of query", "anchors": ["include/DOM/Simple/ElementByTagImpl.hpp: item, getLength, checkUpdated, populate"]}
{"id": "C24", "title": "tree walker visits in document order", "statement": "Starting at the root and calling nextNode until it returns null visits each accepted descendant exactly once in document order; the other moves go to the parent, first or last child and adjacent siblings in the filtered view.", "quantifier": "every tree and every filter", "why_tests_cant": "all shapes of tree and all filters", "anchors": ["include/DOM/Traversal/TreeWalkerImpl.hpp"]}
{"id": "C25", "title": "cloning and importing copy the structure", "statement": "A deep clone or import has the same node types, names, values, attributes and children recursively, shares no node with the original and has no parent; the original is unchanged.", "quantifier": "every subtree", "why_tests_cant": "all shapes of subtree, unbounded depth", "anchors": ["include/DOM/Simple/DocumentImpl.hpp: importNode", "include/DOM/Simple/ElementImpl.hpp: cloneNode, cloneChildren"]}
{"id": "C26", "title": "event dispatch order", "statement": "Dispatching an event calls the capturing listeners from the outermost ancestor inwards, then the target's, then if the event bubbles the others outwards; each registered listener at most once per phase; removed listeners are not called; stopPropagation prevents calls on further nodes.", "quantifier": "every ancestor chain, every set of listeners and every history of add and remove", "why_tests_cant": "all histories of registration and all depths", "anchors": ["include/DOM/Simple/../Events", "include/DOM/Simple/EventTargetImpl.hpp"]}
{"id": "C27", "title": "namespace support resolves to the innermost declaration", "statement": "getURI(prefix) is the URI given to that prefix by the innermost open context that declares it, and popContext restores every lookup to what it was before the matching pushContext.", "quantifier": "every properly nested history of pushContext, popContext and declarePrefix", "why_tests_cant": "all histories, all nesting depths, shadowing", "anchors": ["include/SAX/helpers/NamespaceSupport.hpp: declarePrefix, getURI, pushContext, popContext, reset"]}
{"id": "C28", "title": "namespace support reverse lookups are correct", "statement": "getPrefix(uri), if it returns a prefix, returns one that currently resolves to that URI; getPrefixes lists exactly the prefixes in scope.", "quantifier": "every history of namespace declarations", "why_tests_cant": "shadowing makes wrong answers depend on the whole history", "anchors": ["include/SAX/helpers/NamespaceSupport.hpp: getPrefix, getPrefixes, getDeclaredPrefixes"]}
{"id": "C29", "title": "attribute lists", "statement": "An AttributesImpl behaves as the list of attributes added and not removed: getters by index return the i-th, out-of-range getters return empty, lookups by name return the first match, index setters change only that attribute and throw out of range.", "quantifier": "every history of add, set, replace and remove calls", "why_tests_cant": "all histories and all indices", "anchors": ["include/SAX/helpers/AttributesImpl.hpp"]}
{"id": "C30", "title": "text coalescing filter preserves the document", "statement": "The text coalescer delivers the same events in the same order with the same character data, and never two character events in a row within element content.", "quantifier": "every event sequence", "why_tests_cant": "all interleavings of events", "anchors": ["include/SAX/filter/TextCoalescer.hpp"]}
{"id": "C31", "title": "writer output is balanced and faithful", "statement": "For every well nested event sequence the SAX writer's output consists of properly nested tags whose names, attribute values and character data, after entity replacement, are those of the events.", "quantifier": "every well nested event sequence", "why_tests_cant": "all shapes of document and all strings", "anchors": ["include/SAX/filter/Writer.hpp: startElement, endElement, characters"]}
{"id": "C32", "title": "xml:base scoping", "statement": "During a parse the current base URI is that of the innermost open element carrying xml:base, resolved against the enclosing base; leaving an element restores the base in force before it.", "quantifier": "every well nested sequence of element starts and ends", "why_tests_cant": "all nesting patterns", "anchors": ["include/SAX/helpers/../filter/XMLBaseTracker.hpp", "include/SAX/helpers/XMLBaseSupport.hpp"]}
{"id": "C33", "title": "building a DOM from SAX events", "statement": "The document built by the SAX to DOM parser from a well nested event stream has exactly the elements, attributes, texts, comments and processing instructions of the stream, nested as in the stream.", "quantifier": "every well nested event stream", "why_tests_cant": "all shapes of document", "anchors": ["include/DOM/SAX2DOM/SAX2DOM.hpp: startElement, endElement, characters, comment, processingInstruction"]}
{"id": "C34", "title": "serialised CDATA sections keep their content", "statement": "Writing a CDATA section node to a stream gives one or more CDATA sections whose contents concatenate to the node's data, none of them containing ']]>'.", "quantifier": "every data string", "why_tests_cant": "strings with any number of ']]>' at any positions, overlapping included", "anchors": ["include/DOM/io/Stream.hpp: streamCDATA"]}
{"id": "C35", "title": "XPath axes select the right nodes in the right order", "statement": "Each axis enumerates exactly the nodes XPath defines for it, forward axes in document order and reverse axes in reverse document order, each node once; ancestor, descendant, following, preceding and self partition the document.", "quantifier": "every tree and every context node", "why_tests_cant": "all shapes of tree and positions of the context node", "anchors": ["include/XPath/impl/xpath_axis_enumerator.hpp"]}
{"id": "C36", "title": "document order is a strict total order", "statement": "The node comparison used to sort node-sets is a strict total order agreeing with document order (parents before children, attributes before children, siblings left to right).", "quantifier": "every pair and triple of nodes of every tree", "why_tests_cant": "irreflexivity, transitivity and totality quantify over all nodes; std::sort is undefined otherwise", "anchors": ["include/XPath/impl/xpath_object.hpp: compareNodes, node_position, resolve_different_subtrees"]}
{"id": "C37", "title": "node-sets are sets in document order", "statement": "Sorting a node-set gives its distinct nodes in document order; a union contains exactly the nodes of both operands, each once, in document order.", "quantifier": "every pair of node lists with any repetitions", "why_tests_cant": "all lists in all orders with all multiplicities", "anchors": ["include/XPath/impl/xpath_object.hpp: NodeSet::sort, to_document_order, top", "include/XPath/impl/xpath_union.hpp"]}
{"id": "C38", "title": "XPath string value", "statement": "The string value of an element or document is the concatenation of all its descendant text in document order, however the text is divided into adjacent text and CDATA nodes.", "quantifier": "every tree", "why_tests_cant": "all shapes and all divisions of the text", "anchors": ["include/XPath/impl/xpath_object.hpp: nodeStringValue"]}
{"id": "C39", "title": "XPath comparisons are existential", "statement": "Comparing two node-sets, or a node-set with a string or number, by =, !=, <, <=, > or >= is true exactly if some node (pair) satisfies the comparison; empty node-sets compare false.", "quantifier": "all node-sets, of any size, with any values including NaN", "why_tests_cant": "existential over all elements; implementations use minima and maxima that fail on NaN or empty sets", "anchors": ["include/XPath/impl/xpath_object.hpp: areEqual, areNotEqual, isLessThan, compareNodeSets, minValue, maxValue, nodeSetsCompare"]}
{"id": "C40", "title": "XPath string functions", "statement": "substring-before, substring-after, contains, starts-with, concat, string-length, normalize-space, translate and substring return what XPath 1.0 section 4.2 defines.", "quantifier": "all argument strings and all numbers including NaN and infinities", "why_tests_cant": "all strings and all numeric arguments; the boundary cases throw or silently corrupt", "anchors": ["include/XPath/impl/xpath_function.hpp: SubstringFn, TranslateFn, SubstringBeforeFn, SubstringAfterFn, ContainsFn, StartsWithFn, NormalizeSpaceFn"]}
{"id": "C41", "title": "XPath predicates filter by proximity position", "statement": "A step's predicates are applied left to right, each seeing positions 1..n of the nodes the previous one kept in axis order and last() = n; a numeric predicate keeps exactly the node at that position.", "quantifier": "every node list and every sequence of predicates", "why_tests_cant": "all lists and predicate chains", "anchors": ["include/XPath/impl/xpath_step.hpp: applyPredicates, applyPredicate"]}
{"id": "C42", "title": "location paths compose steps", "statement": "A location path selects exactly the nodes reachable by following its steps from the context node, each once, in document order.", "quantifier": "every tree, context node and path of any length", "why_tests_cant": "all trees and paths; duplicates arise only for particular axis combinations", "anchors": ["include/XPath/impl/xpath_step.hpp: TestStepExpression, RelativeLocationPath, AbsoluteLocationPath"]}
{"id": "C43", "title": "XPath arithmetic remainder", "statement": "a mod b is the remainder of truncating division, defined for all numbers with b nonzero, and never crashes.", "quantifier": "all pairs of numbers", "why_tests_cant": "all numbers, fractional and small divisors included", "anchors": ["include/XPath/impl/xpath_arithmetic.hpp: NaN_aware_modulus"]}
{"id": "C44", "title": "import precedence is a strict total order", "statement": "Import precedence orders stylesheets so that an importing stylesheet is above everything it imports, a later import is above everything an earlier one brings in, and any two different stylesheets are comparable.", "quantifier": "every import tree", "why_tests_cant": "import trees of any shape and depth", "anchors": ["include/XSLT/impl/xslt_precedence.hpp"]}
{"id": "C45", "title": "template selection", "statement": "apply-templates runs, among the templates of the mode whose pattern matches, one of highest import precedence, among those of highest priority, and among those the last in the stylesheet; if none matches the built-in rule.", "quantifier": "every set of templates and every node", "why_tests_cant": "all sets of templates with all ties", "anchors": ["include/XSLT/impl/xslt_compiled_stylesheet.hpp: add_template, prepare, doApplyTemplates"]}
{"id": "C46", "title": "xsl:sort", "statement": "Sorting by a list of sort keys gives a permutation of the nodes ordered by the first key, ties by the second and so on, with NaN before all numbers in ascending order, and full ties in their original order.", "quantifier": "every node list and every list of keys", "why_tests_cant": "comparator must be a strict weak order on all values; stability over all lists", "anchors": ["include/XSLT/impl/xslt_sort.hpp"]}
{"id": "C47", "title": "XSLT variable scoping", "statement": "A variable reference yields the binding made in the current template instantiation or else the global one; bindings made in an inner scope vanish when it is left; a parameter takes the passed value if one was passed under its name and its default otherwise.", "quantifier": "every nested history of scopes, declarations and parameter passing", "why_tests_cant": "all histories", "anchors": ["include/XSLT/impl/xslt_variable_stack.hpp", "include/XSLT/impl/xslt_execution_context.hpp"]}
{"id": "C48", "title": "names in the XSLT result keep their namespace", "statement": "Every element and attribute name in the output of a transformation resolves, by the namespace declarations in the output, to the namespace the stylesheet gave it, and no element carries two attributes of the same name.", "quantifier": "every sequence of result-tree events", "why_tests_cant": "all nestings and prefix clashes", "anchors": ["include/XSLT/impl/xslt_namespace_stack.hpp", "include/XSLT/impl/xslt_output.hpp"]}
{"id": "C49", "title": "XSLT comments and processing instructions stay well formed", "statement": "The text of a result comment never contains '--' or ends in '-', and that of a processing instruction never contains '?>'; nothing else is changed.", "quantifier": "every text", "why_tests_cant": "strings with arbitrarily many overlapping hyphens", "anchors": ["include/XSLT/impl/xslt_output.hpp: end_comment, end_processing_instruction, escape"]}
{"id": "C50", "title": "HTML parser events are balanced", "statement": "Whatever the input, the tag-soup HTML parser delivers startElement and endElement events that nest properly, and every element started has been ended by endDocument.", "quantifier": "every sequence of scanner tokens, every element schema", "why_tests_cant": "all inputs, in particular arbitrarily malformed markup", "anchors": ["include/Taggle/impl/Parser.hpp: push, pop, rectify, restart, etag_basic, eof", "include/Taggle/impl/Element.hpp"]}
{"id": "C51", "title": "conversion streams always finish", "statement": "Putting any finite string through a converting stream terminates.", "quantifier": "every finite input, well formed or not, for every facet", "why_tests_cant": "a non-terminating loop cannot be observed by a test that passes; needs every truncation point", "anchors": ["include/convert/impl/../convertstream.hpp: convert loops", "src/convert/impl/ucs2_utf8.cpp", "src/convert/impl/ucs2_utf16.cpp"]}
{"id": "C52", "title": "length queries stay inside the buffer", "statement": "Asking a facet how many input characters make up at most n output characters always returns, and never reports more than are available.", "quantifier": "every buffer and every n", "why_tests_cant": "all buffers, all limits", "anchors": ["src/convert/*codecvt.cpp: do_length"]}
{"id": "C53", "title": "written text survives a conforming reader", "statement": "Character data and attribute values written by the escapers are read back unchanged by a conforming XML reader, including its line end handling.", "quantifier": "every string", "why_tests_cant": "all strings; line end handling is applied before references are expanded", "anchors": ["include/XML/escaper.hpp: text_escaper, attribute_escaper"]}
{"id": "C54", "title": "deleting a document deletes each of its nodes once", "statement": "Deleting a document, or purging a child, deletes every live node it owns (or of the purged subtree) exactly once and nothing else; no live node is left with a deleted parent or child.", "quantifier": "every history of creation, edits and purges", "why_tests_cant": "ownership depends on the whole history of insertions and removals, including failed ones", "anchors": ["include/DOM/Simple/DocumentImpl.hpp: ~DocumentImpl, orphaned, adopted, purge", "include/DOM/Simple/NodeImpl.hpp: setParentNode, do_purgeChild, ~NodeImplWithChildrenT"]}
{"id": "C55", "title": "the XSLT result has the nodes the instructions stand for", "statement": "The tags of a transformation's output nest, and its elements, text, comments and processing instructions are those written by the instructions that ran, in order; instructions other than text inside an attribute, comment or processing instruction are ignored, as XSLT 1.0 prescribes for recovery.", "quantifier": "every nested sequence of instructions", "why_tests_cant": "the output is buffered and start tags are held back until their attributes are known, so what is written depends on all that came before", "anchors": ["include/XSLT/impl/xslt_output.hpp: start_element, end_element, start_attribute, characters, start_comment, flush_current"]}
{"id": "C56", "title": "CDATA sections of the XSLT result", "statement": "Text is written inside a CDATA section exactly if its parent is listed in cdata-section-elements; a section holds nothing but text, and none is left open.", "quantifier": "every nested sequence of instructions and every list of elements", "why_tests_cant": "sections are opened and closed by a flag carried across calls", "anchors": ["include/XSLT/impl/xslt_output.hpp: characters, flush_current, isCDATA"]}
{"id": "C57", "title": "apply-imports uses the current template rule", "statement": "xsl:apply-imports runs the rule that the stylesheets imported by the one of the current template rule have for the current node in the current mode, wherever it is in the template.", "quantifier": "every stylesheet, node and depth of recursion", "why_tests_cant": "the current rule is kept in variables that nested instructions change; all interleavings", "anchors": ["include/XSLT/impl/xslt_compiled_stylesheet.hpp: applyImports, doApplyTemplates, current_generation_, current_mode_"]}
{"id": "C58", "title": "named templates", "statement": "xsl:call-template runs the template of the name given with the highest import precedence; two templates of one name and precedence are refused.", "quantifier": "every set of templates", "why_tests_cant": "all orders of reading with all precedences", "anchors": ["include/XSLT/impl/xslt_compiled_stylesheet.hpp: add_template, callTemplate"]}
{"id": "C59", "title": "circular global variables are reported", "statement": "Before a transformation starts every global variable is evaluated; a chain of references that leads back to its start is reported as an error instead of running for ever, and nothing else is.", "quantifier": "every set of global variables with every graph of references", "why_tests_cant": "all graphs, and evaluation is lazy with cached values and one resolution stack per variable", "anchors": ["include/XSLT/impl/xslt_variable_stack.hpp: freezeTopLevel, resolveVariable", "include/XSLT/impl/xslt_execution_context.hpp: VariableClosure"]}
{"id": "C60", "title": "PYX output has the document's events", "statement": "Reading the PYX writer's output line by line gives back the start and end of every element with its attributes, the character data and the processing instructions of the events, in order.", "quantifier": "every event sequence", "why_tests_cant": "all strings, including those holding the characters the line format gives a meaning", "anchors": ["include/SAX/filter/PYXWriter.hpp: startElement, characters, processingInstruction, escape"]}
{"id": "C61", "title": "white space filter keeps the words", "statement": "The white space stripping filter hands on every event, with each run of white space in character data turned into one space and that at both ends removed, whatever way the parser cuts the character data into events.", "quantifier": "every event sequence", "why_tests_cant": "the same text can be cut into events at every position", "anchors": ["include/SAX/filter/WhitespaceStripperFilter.hpp: characters, ignorableWhitespace"]}
{"id": "C62", "title": "the namespace tracker gives the mappings in scope", "statement": "After any stream of events the namespace tracker's getURI is the URI of the innermost mapping of the prefix announced for an open element, and inScopeNamespaces is the map of them all.", "quantifier": "every nested stream of events", "why_tests_cant": "depends on all mappings announced for all open elements", "anchors": ["include/SAX/filter/NamespaceTracker.hpp: getURI, inScopeNamespaces, startElement, endElement"]}
{"id": "C63", "title": "a serialised DOM tree reads back as the same tree", "statement": "Writing a DOM node to a stream gives XML that a namespace aware reader reads as the same nodes: the same elements and attributes with the same namespace URIs and local names, text, comments, processing instructions and entity references, in order.", "quantifier": "every DOM tree with every assignment of namespaces and prefixes", "why_tests_cant": "all trees; the declarations written depend on those of all ancestors", "anchors": ["include/DOM/io/Stream.hpp: operator<<, prefix_mapper, check_and_output_node_name, is_uri_declared"]}
{"id": "C64", "title": "names are checked and split", "statement": "createElement, createAttribute, createElementNS and createAttributeNS refuse with INVALID_CHARACTER_ERR exactly the strings that are not XML names, the last two refuse with NAMESPACE_ERR exactly the names and namespaces that do not go together, and the nodes made have the prefix, local name and namespace URI asked for.", "quantifier": "every name and namespace URI", "why_tests_cant": "all strings of all characters", "anchors": ["include/DOM/Simple/NodeImpl.hpp: checkName", "include/DOM/Simple/Helpers.hpp: checkPrefixAndNamespace", "include/DOM/Simple/ElementNSImpl.hpp", "include/DOM/Simple/AttrNSImpl.hpp"]}
{"id": "C65", "title": "parsing HTML always succeeds", "statement": "Whatever bytes it is given and whatever its features, the tag-soup HTML parser reads them to the end and returns, without exception or undefined behaviour, and reports one document element with no text outside it.", "quantifier": "every string of bytes, every combination of features", "why_tests_cant": "all inputs; the parser looks for a place for each element by walking a table of parents, and the scanner by a table of states", "anchors": ["include/Taggle/impl/Parser.hpp: rectify, restart, etag, gi, pcdata, eof", "include/Taggle/impl/html/HTMLScanner.hpp: scan, statetable", "include/Taggle/impl/html/HTMLSchema.hpp"]}
{"id": "C66", "title": "HTML parser events can be written as XML", "statement": "The events of the tag-soup HTML parser are those of a well-formed XML document with namespaces: names, attributes, comments, processing instructions and prefix mappings are such as XML allows.", "quantifier": "every string of bytes", "why_tests_cant": "all inputs, with any byte in any place", "anchors": ["include/Taggle/impl/Parser.hpp: makeName, aname, aval, pitarget, pi, cmnt, push", "include/Taggle/impl/ElementType.hpp: setAttribute", "include/Taggle/impl/html/HTMLScanner.hpp: scan"]}
{"id": "C67", "title": "the HTML parser keeps the text", "statement": "The character data reported for an HTML document is the text of its source with the references expanded, in order; nothing but white space between elements is left out.", "quantifier": "every string of bytes", "why_tests_cant": "all texts with references in any place, and any cutting of the text by the scanner's buffer", "anchors": ["include/Taggle/impl/html/HTMLScanner.hpp: scan, save", "include/Taggle/impl/Parser.hpp: pcdata, entity, lookupEntity"]}
{"id": "C68", "title": "the HTML parser reports the document type", "statement": "A document type declaration is reported once, with its name and its public and system identifiers.", "quantifier": "every declaration, every history of earlier parses", "why_tests_cant": "all declarations, with any white space and quotes, and the parser is reused", "anchors": ["include/Taggle/impl/Parser.hpp: decl, split, trimquotes, setup"]}
{"id": "C69", "title": "a namespace aware reader reports namespaces as SAX2 says", "statement": "Parsing a document with the Expat reader and namespaces on reports each element and attribute with the namespace and local name its prefix stands for where it is used, each declaration as the start of a mapping before its element and the end of that mapping after it, and text, comments, processing instructions and CDATA sections as they are, in order; with namespaces off names are reported as written; the reader can then be used again.", "quantifier": "every document with every use of prefixes, every sequence of parses", "why_tests_cant": "the namespace of a name depends on the declarations of all elements around it, to any depth, and on the reader's history", "anchors": ["include/SAX/wrappers/saxexpat.hpp: startElement, endElement, processName, parse", "include/SAX/helpers/NamespaceSupport.hpp: processName, declarePrefix, getDeclaredPrefixes"]}
{"id": "C70", "title": "XPath expressions are read by the grammar of XPath 1.0", "statement": "Compiling a string that is an expression of XPath 1.0, with any white space between its tokens, gives the expression with the precedence, associativity, axes, node tests, predicates, names and abbreviations the recommendation defines; strings that are no expressions are refused.", "quantifier": "every expression of any size, with every way of writing it", "why_tests_cant": "all strings; the grammar tries its rules in order and decides by what comes next, so a rule can be wrong only in some surroundings", "anchors": ["include/XPath/impl/xpath_grammar.hpp: xpath_grammar", "include/XPath/impl/xpath_parser.hpp: compile_expr, createBinaryExpression, createFunction, createStepList, expression_factory", "include/XPath/impl/xpath_step.hpp: StepFactory", "include/XPath/impl/xpath_ast.hpp: skipWhitespace"]}
{"id": "C71", "title": "match patterns match what they select", "statement": "A node matches a match pattern exactly if some context node gives it for the pattern taken as an expression, whatever the steps, axes, predicates and white space of the pattern.", "quantifier": "every pattern, document, node and assignment of values to expressions", "why_tests_cant": "all patterns over all trees: the pattern is compiled to a path in the opposite direction with its predicates rewritten", "anchors": ["include/XPath/impl/xpath_grammar.hpp: xpath_grammar_match", "include/XPath/impl/xpath_parser.hpp: compile_match, createPatternList, createStepsFromPattern, getPatternAxis", "include/XPath/impl/xpath_match.hpp: MatchExpr", "include/XPath/impl/xpath_match_rewrite.hpp: ReplacementExpression, PositionFnScanner, should_rewrite"]}
{"id": "C72", "title": "default priorities of template rules", "statement": "The default priority of each alternative of a match pattern is the one XSLT 1.0 section 5.5 gives: 0 for one name or a processing instruction with a target, -1/4 for all names of a namespace, -1/2 for other tests without predicates, else 1/2.", "quantifier": "every pattern", "why_tests_cant": "all patterns, with all ways to write them", "anchors": ["include/XPath/impl/xpath_parser.hpp: defaultPriority"]}
{"id": "C73", "title": "the text of an XSLT result reads back as the result", "statement": "Transforming to a stream writes XML that a namespace aware reader reads as the result: the XML declaration unless it is to be left out, the document type declaration if there is one, then the same elements and attributes with the same expanded names, and the same text, comments and processing instructions in order, with text in CDATA sections exactly where cdata-section-elements asks for it; indent adds white space and nothing else.", "quantifier": "every nested sequence of instructions with every setting of xsl:output", "why_tests_cant": "all texts in all surroundings; tags are closed late, declarations are written at the first node whatever it is, and text in CDATA sections is cut at every ]]>", "anchors": ["include/XSLT/impl/xslt_sink.hpp: StreamSink", "include/XSLT/impl/xslt_output.hpp: Output"]}
{"id": "C74", "title": "the text method writes the text", "statement": "With method text a transformation to a stream writes the text of the result, in order and unescaped, and nothing else.", "quantifier": "every nested sequence of instructions with every setting of xsl:output", "why_tests_cant": "all interleavings of text with other nodes, all of which take part in the state of the output", "anchors": ["include/XSLT/impl/xslt_sink.hpp: StreamSink", "include/XSLT/impl/xslt_output.hpp: Output"]}
{"id": "C75", "title": "expressions evaluate to what they mean", "statement": "Compiling the text of an expression and evaluating it at a node gives the value that sections 2 to 4 of XPath 1.0 give the expression there, as a value and converted to a boolean, a number, a string or a node-set: paths select the nodes their steps, tests and predicates say, in document order, operators and core functions have the values the recommendation gives.", "quantifier": "every expression of any size, every document, node, context position and size, every assignment of values to variables", "why_tests_cant": "expressions nest without bound, each predicate is evaluated once for each node with its own position and size, and node-sets carry a direction that operators and functions must respect", "anchors": ["include/XPath/impl/xpath_step.hpp: RelativeLocationPath, TestStepExpression, ExprStepExpression, applyPredicates", "include/XPath/impl/xpath_function.hpp", "include/XPath/impl/xpath_function_holder.hpp", "include/XPath/impl/xpath_arithmetic.hpp", "include/XPath/impl/xpath_logical.hpp", "include/XPath/impl/xpath_relational.hpp", "include/XPath/impl/xpath_union.hpp", "include/XPath/impl/xpath_value.hpp", "include/XPath/impl/xpath_expression.hpp: evaluate, evaluateAsBool, evaluateAsNumber, evaluateAsString, evaluateAsNodeSet"]}
{"id": "C76", "title": "attribute value templates give their text", "statement": "Compiling an attribute value template and evaluating it as a string gives the characters of the template, with doubled braces as one, and the string values of the expressions between braces, in order; a right brace that is not doubled is refused.", "quantifier": "every template with any number of expressions of any size, every document, node and assignment of values to variables", "why_tests_cant": "the end of an expression is found by parsing it, so every expression, with braces inside literals and white space before the closing brace, is a separate case", "anchors": ["include/XPath/impl/xpath_grammar.hpp: xpath_grammar_attribute_value", "include/XPath/impl/xpath_parser.hpp: compile_attribute_value_template, createAttributeValue, createEmbeddedExpr, createDoubleLeftCurly, createDoubleRightCurly"]}
{"id": "C77", "title": "keys give the nodes that have them", "statement": "However often and in whatever order the keys of a stylesheet are asked for, key() gives the nodes of the document of the context node that match the pattern of an xsl:key of that name and for which its expression has one of the values asked for, each once and in document order.", "quantifier": "every set of xsl:key declarations, every collection of documents, every sequence of calls with every kind of value", "why_tests_cant": "what is found for a document is computed at the first call and kept, so a result can depend on the whole history of calls", "anchors": ["include/XSLT/impl/xslt_key.hpp: Key, DeclaredKeys", "include/XSLT/impl/xslt_functions.hpp: KeyFunction"]}
{"id": "C78", "title": "a transformation gives what the stylesheet says", "statement": "Executing a stylesheet for a node writes what XSLT 1.0 says it gives: the template rule of each node that is processed, or the built-in rule, with the instructions of templates, parameters, global and local variables, loops, sorting, conditions and copies, each expression evaluated for the current node, its position and the number of nodes that are processed, however deep templates apply and call each other.", "quantifier": "every stylesheet, document and node for which the transformation ends", "why_tests_cant": "templates call each other to any depth on any tree, and the state of the run (current node, position, size, variables, passed parameters, pending output) is shared by all of them", "anchors": ["include/XSLT/impl/xslt_compiled_stylesheet.hpp: execute, applyTemplates, callTemplate, doApplyTemplates, defaultAction", "include/XSLT/impl/xslt_execution_context.hpp: ExecutionContext, StackFrame, ChainStackFrame, LastFrame", "include/XSLT/impl/xslt_variable_stack.hpp: VariableStack", "include/XSLT/impl/xslt_for_each.hpp", "include/XSLT/impl/xslt_apply_templates.hpp", "include/XSLT/impl/xslt_call_template.hpp", "include/XSLT/impl/xslt_copy.hpp", "include/XSLT/impl/xslt_choose.hpp", "include/XSLT/impl/xslt_inline_element.hpp"]}
{"id": "C79", "title": "compiling a stylesheet gives its instructions", "statement": "Compiling a stylesheet document gives the template rules, named templates, global variables, parameters and keys it has by XSLT 1.0, in order, each with its pattern, name, mode and priority and with the instructions of its content, however deep they are nested; a document XSLT does not allow is refused.", "quantifier": "every stylesheet document of any depth, and every way a parser cuts its text into events", "why_tests_cant": "each element has its own handler, with its own rules for attributes, children and text, on a stack that is as deep as the document; all nestings of all handlers", "anchors": ["include/XSLT/impl/xslt_stylesheet_compiler.hpp: StylesheetHandler, StylesheetCompiler", "include/XSLT/impl/xslt_compilation_context.hpp: push, pop, xpath_match", "include/XSLT/impl/handler/xslt_item_container_handler.hpp: ItemContainerHandler", "include/XSLT/impl/handler/xslt_template_handler.hpp", "include/XSLT/impl/handler/xslt_choose_handler.hpp", "include/XSLT/impl/handler/xslt_for_each_handler.hpp", "include/XSLT/impl/handler/xslt_variable_handler.hpp", "include/XSLT/impl/handler/xslt_key_handler.hpp", "include/XSLT/impl/handler/xslt_value_validation.hpp: AttributeValidators"]}
{"id": "C80", "title": "a stylesheet document transforms a document", "statement": "Given a stylesheet document, the processor writes for a node of a source document what XSLT 1.0 says: the document is read as templates whose attributes hold expressions, patterns, attribute value templates and names; for each node that is processed the matching rule with the highest priority, and of these the last, is instantiated; and what its instructions give is the output.", "quantifier": "every stylesheet document, source document and node for which the transformation ends", "why_tests_cant": "the text of a stylesheet passes through the parsers of expressions, patterns and templates, the compiler, the choice of rules and the execution; the composition has to be right for all texts, trees and rules together", "anchors": ["include/XSLT/XSLT.hpp", "include/XSLT/impl/xslt_stylesheet_compiler.hpp: StylesheetCompiler", "include/XSLT/impl/xslt_compilation_context.hpp: xpath_expression, xpath_match, xpath_attribute_value_template, processQName", "include/XSLT/impl/xslt_compiled_stylesheet.hpp: add_template, prepare, doApplyTemplates, execute", "include/XSLT/impl/xslt_template.hpp: Template"]}
{"id": "C81", "title": "a transformation into a DOM gives the result tree", "statement": "Transforming into a DOM leaves a document fragment whose nodes, read in document order, are the result: the same elements and attributes with the same expanded names and values, text joined into one node without empty nodes, comments and processing instructions, with text in CDATA sections exactly in the elements of cdata-section-elements.", "quantifier": "every nested sequence of instructions with every list of cdata-section-elements, for narrow and wide strings", "why_tests_cant": "the tree is built by calls whose effect depends on the whole state of the sink: the open elements, the last node and the mode; all interleavings at all depths are cases", "anchors": ["include/XSLT/impl/xslt_sink.hpp: DOMSink", "include/XSLT/impl/xslt_output.hpp: Output", "include/DOM/Simple/AttrMap.hpp: setAttributeNS"]}
{"id": "C82", "title": "variables with content are result tree fragments", "statement": "A variable or parameter without select has as its value the result tree fragment of its content: as a string the text of the content, as a number the number of this string, as a boolean true, and copying it copies the nodes of the content.", "quantifier": "every content, at any depth", "why_tests_cant": "all contents: the value is taken from a tree built by the output, and depends on which nodes come first in it", "anchors": ["include/XSLT/impl/xslt_variable_impl.hpp: Variable_impl, value", "include/XSLT/impl/xslt_sink.hpp: DOMSink", "include/XPath/impl/xpath_value.hpp: NodeSetValue"]}
{"id": "C83", "title": "a stylesheet of several files", "statement": "Compiling a stylesheet reads the files it includes and imports, each named relative to the base of where its name stands: included declarations take the place of the xsl:include; each stylesheet of the import tree has a precedence of its own, higher than those it imports and those imported before it; a stylesheet in which a file includes or imports itself, directly or not, or names one that cannot be read, is refused; compiling always comes to an end.", "quantifier": "every set of files however they name each other, to any depth", "why_tests_cant": "files include and import each other in every pattern, and imports are put off on a stack that grows while it is read; names are resolved against a base that changes with every file", "anchors": ["include/XSLT/impl/handler/xslt_include_handler.hpp: IncludeHandler", "include/XSLT/impl/xslt_compilation_context.hpp: parentHandler, set_precedence, next_precedence, setBase", "include/SAX/filter/XMLBaseTracker.hpp", "include/SAX/helpers/XMLBaseSupport.hpp"]}
{"id": "C84", "title": "streams that convert", "statement": "Reading through a converting input stream gives the conversion of what is in the stream underneath, to the end, whatever its length; up to four characters can be put back after any read and are the ones that were read. Writing through a converting output stream sends the conversion of everything written, wherever it is flushed, by the time the stream is destroyed.", "quantifier": "every content of any length, every sequence of reads and put backs, every sequence of writes and flushes", "why_tests_cant": "content is read in blocks of 1024, converted into a buffer that grows, and cut anywhere in a character: lengths and cuts at every block are different cases", "anchors": ["include/io/convert_adaptor.hpp: convert_bufadaptor, iconvert_adaptor, oconvert_adaptor", "src/convert/impl/ucs2_utf8.cpp", "src/convert/impl/ucs2_utf16.cpp", "src/convert/impl/iso88591_utf8.cpp", "src/convert/rot13codecvt.cpp"]}
{"id": "C85", "title": "chains of filters", "statement": "Parsing with a filter calls the handlers set on it with what the filters of the chain, from the one nearest the parser on, make of what the parser reports: each call to the handler of its interface, in order and with its arguments, whatever handlers were set on the other readers before; a handler set by a handler gets the calls from then on, an exception ends the parse at once, and the answer of the entity resolver comes back to the parser. Filters that change nothing make no difference.", "quantifier": "every chain of filters of any length and class, every sequence of calls the parser makes, every program that reacts to calls by setting handlers or throwing", "why_tests_cant": "chains can have any length, each filter can make several calls of one and keep state, and handlers change while calls are on their way", "anchors": ["include/SAX/helpers/XMLFilterImpl.hpp: XMLFilterImpl", "include/SAX/helpers/DefaultHandler.hpp: DefaultHandler", "include/SAX/wrappers/saxexpat.hpp: expat_wrapper::parse", "include/SAX/filter/TextOnly.hpp: TextOnly"]}
{"id": "C86", "title": "features of readers", "statement": "A feature set on a reader, or on any filter of a chain before it, has the value set, on all of them, until it is set again; the other features, and other readers, keep theirs; a feature that cannot be set, because there is none of that name or the reader is parsing, is refused with an exception that changes nothing; after a parse, however it ends, features can be set again.", "quantifier": "every history of settings and parses, every chain", "why_tests_cant": "the value of one feature depends on the whole history of settings of the others, and on how earlier parses ended", "anchors": ["include/SAX/wrappers/saxexpat.hpp: expat_wrapper::setFeature, getFeature, checkNotParsing", "include/SAX/helpers/XMLFilterImpl.hpp: setFeature, getFeature", "include/SAX/helpers/FeatureNames.hpp"]}
{"id": "C87", "title": "asking what the processor has", "statement": "element-available is true of exactly the names of instructions a template can use, function-available of exactly the names of functions an expression can call, and both expand the name with the namespaces declared where the expression stands; system-property gives the properties of the XSLT namespace, by whatever prefix, and the empty string for others. A string that is no qualified name is an error.", "quantifier": "every string asked for and every set of declared namespaces", "why_tests_cant": "any string can be asked for, computed at run time, under any declarations; the answers have to agree with three separate tables elsewhere in the compiler", "anchors": ["include/XSLT/impl/xslt_functions.hpp: ElementAvailableFunction, FunctionAvailableFunction, SystemPropertyFunction", "include/XSLT/impl/xslt_compilation_context.hpp: resolveFunction, validNames", "include/XPath/impl/xpath_function_holder.hpp: FunctionHolder::createFunction", "include/XML/QName.hpp: parseQName", "include/XSLT/impl/handler/xslt_item_container_handler.hpp: AllowedChildren"]}
{"id": "C88", "title": "generate-id identifies nodes", "statement": "generate-id gives the same string for the same node each time, different strings for different nodes, each a name made of ASCII letters and digits that begins with a letter; of a node-set it is the id of the first node in document order, and the empty string if there is none.", "quantifier": "every two nodes of every document, every node-set however it came about", "why_tests_cant": "all pairs of nodes must differ, wherever they are in memory", "anchors": ["include/XSLT/impl/xslt_functions.hpp: GenerateIdFunction", "include/XPath/impl/xpath_node_set.hpp: top"]}
{"id": "C89", "title": "namespace aliases", "statement": "A literal result element, and its attributes, have in the result the local names they have in the stylesheet, in the namespace for which xsl:namespace-alias declares theirs an alias, by prefix or by #default, the last declaration for a namespace counting wherever it stands; attributes in the XSLT namespace and declarations are left out. A stylesheet with an alias for an undeclared prefix is refused.", "quantifier": "every stylesheet: every sequence of aliases and literal result elements with any attributes", "why_tests_cant": "the name of every element depends on all the declarations of the stylesheet, in any order, and on the prefixes in scope at each", "anchors": ["include/XSLT/impl/handler/xslt_namespace_alias_handler.hpp: NamespaceAliasHandler", "include/XSLT/impl/handler/xslt_inline_element_handler.hpp: InlineElementHandler::createContainer", "include/XSLT/impl/xslt_compilation_context.hpp: addNamespaceAlias, isRemapped, remappedNamespace, autoNamespacePrefix", "include/XSLT/impl/xslt_qname.hpp: QName::create"]}
{"id": "C90", "title": "opening input sources", "statement": "An input source with a byte stream is read from that stream, which is left to the caller. One with a system identifier only is read from the stream that the last resolver registered for the scheme of the identifier, and not taken away since, makes of it, or, if it names a file, from that file; nothing else is ever opened. What was opened is deleted in the end, and only that.", "quantifier": "every input source, every history of registering and taking away resolvers, every file system", "why_tests_cant": "which stream is read depends on the whole history of a global map and on how any identifier is taken apart", "anchors": ["src/SAX/helpers/InputSourceResolver.cpp: InputSourceResolver::open, registerResolver, unRegisterResolver, fileResolver", "include/SAX/helpers/InputSourceResolver.hpp: InputSourceResolver"]}
{"id": "C91", "title": "reading from an http server", "statement": "The stream made of an http address asks the host for the path and gives the content the server sends, all of it and nothing of the header, and the call returns whatever the server sends.", "quantifier": "every address and every response: any header lines and any content", "why_tests_cant": "the header ends where the server says, and a server can send anything", "anchors": ["src/SAX/helpers/InputSourceResolver.cpp: httpResolver"]}
{"id": "C92", "title": "declarations that are read are reported", "statement": "Each declaration of a document type is reported with what it declares: an element with its content model, in the notation of XML and so that the model can be told from the text; an attribute with its type, default and value; internal, external, unparsed and parameter entities and notations with their values and identifiers.", "quantifier": "every content model of any depth and width, every attribute, entity and notation declaration", "why_tests_cant": "content models nest without bound, and their texts must be told apart for all of them", "anchors": ["include/SAX/wrappers/saxexpat.hpp: elementDeclaration, convertXML_Content, attListDeclaration, entityDeclaration, notationDeclaration"]}
{"id": "C93", "title": "document types that are written read back", "statement": "The document type that the writer writes for reported declarations is one that reads back as those declarations, in their order, with the name and the identifiers of the document type; those of the external subset are not written.", "quantifier": "every name, identifiers and sequence of declarations of any length, inside and outside the external subset", "why_tests_cant": "the text is read by its punctuation, which any name or value might bring with it", "anchors": ["include/SAX/filter/Writer.hpp: startDTD, endDTD, startEntity, endEntity, notationDecl, unparsedEntityDecl, elementDecl, attributeDecl, internalEntityDecl, externalEntityDecl, publicAndSystem"]}
{"id": "C94", "title": "reading from a socket", "statement": "What is read from a socket stream is what the other end sends, all of it and in order, to where that end closes the connection, however the network cuts it into pieces; up to four bytes can be put back after any read; a connection that breaks can be told from one that ends.", "quantifier": "every content, every way it is cut into pieces, every sequence of reads, put backs, writes and flushes", "why_tests_cant": "the pieces are the schedule of the network, and bytes are moved in the buffer from each piece to the next", "anchors": ["include/io/socket_stream.hpp: basic_socketbuf::underflow, pbackfail, readSocket, growInBuffer, close"]}
{"id": "C95", "title": "writing to a socket", "statement": "What is written to a socket stream is sent to the host it is connected to, in order and once: what was written before a flush that succeeds when that returns, and the rest by the time the stream is closed or destroyed. Writing to a stream that is closed fails.", "quantifier": "every sequence of writes, flushes, reads, closings and connections, every outcome of each send", "why_tests_cant": "how much each send takes is up to the operating system, and the buffer outlives the connection", "anchors": ["include/io/socket_stream.hpp: basic_socketbuf::overflow, sync, writeSocket, growOutBuffer, open, close, ~basic_socketbuf"]}
{"id": "C96", "title": "attributes with declared values", "statement": "An element of a parsed document has for every attribute name its document type declares a value for exactly one attribute: what the element was given, and then it is specified, or else one of the declared value that is not. So for new elements, clones, and after attributes are removed; other attributes are as they were set.", "quantifier": "every list of declarations, every element name, every history of setting, changing and removing attributes by name or namespace, and of cloning", "why_tests_cant": "the attribute is restored by the code that removes it, so what an element has depends on the declarations and on all that was done to it", "anchors": ["include/DOM/Simple/AttrMap.hpp: AttrMap::getDefaults, createDefault, removeNamedItem, removeNamedItemNS", "include/DOM/SAX2DOM/DocumentTypeImpl.hpp: DocumentType::addDefaultAttr", "include/DOM/Simple/ElementImpl.hpp: ElementImpl, cloneNode, cloneChildren", "include/DOM/SAX2DOM/SAX2DOM.hpp: Parser::attributeDecl, elementDecl, startElement"]}
{"id": "C97", "title": "handles of streams", "statement": "A stream given to a handle is deleted when the last handle that holds it is destroyed, released or assigned another, once and not before; a stream lent to a handle is never deleted; each handle gives the stream that was last given, lent or assigned to it, and no memory is left behind.", "quantifier": "every history of constructing, copying, assigning, releasing and destroying any number of handles", "why_tests_cant": "reference counts are right only if every order of these calls keeps them right", "anchors": ["include/SAX/IStreamHandle.hpp: IStreamHandle, operator=, release, get, removeRef, addRef, set"]}
{"id": "C98", "title": "finding elements by ID", "statement": "getElementById answers the element in the document that has, at the time, an attribute of the value asked for which the document type declares to be of type ID for elements of its name; it answers null if there is none, and is always defined.", "quantifier": "every list of declarations, every history of setting, changing and removing attributes and of inserting, moving, removing and purging elements, every value asked for, every placing of attributes in memory", "why_tests_cant": "the answer comes from a set kept beside the tree, in the order of addresses, that every call has to keep right", "anchors": ["include/DOM/Simple/DocumentImpl.hpp: getElementById, setElementId, removeElementId, purge", "include/DOM/Simple/AttrImpl.hpp: AttrImpl::setOwnerElement", "include/DOM/Simple/AttrMap.hpp: setAttribute, removeNamedItem", "include/DOM/Simple/DocumentTypeImpl.hpp: getElementIds, addElementId", "include/DOM/SAX2DOM/SAX2DOM.hpp: Parser::attributeDecl"]}
{"id": "C99", "title": "external entities are reported by name", "statement": "Of each reference to an external entity the reader reports the start and the end of that entity, with what it contains between them, or, if entities are not to be read, that it was skipped, by the name of that entity: with % before it for a parameter entity, [dtd] for the external subset. What is read is what the entity resolver gives for the identifiers of the entity, or else the entity they identify.", "quantifier": "every sequence of documents read by one reader, every document type, references nested to any depth, every choice of handlers and resolver", "why_tests_cant": "the parser gives identifiers, not names: the name comes from what all declarations so far have left in a map", "anchors": ["include/SAX/wrappers/saxexpat.hpp: externalEntityRefHandler, entityDeclaration, startDoctypeDecl, parse"]}
{"id": "C100", "title": "reading a document", "statement": "Parsing gives the parser the bytes of the source, in order and all of them, up to the first error, and tells it once, with the last of them, that it ends; the first error, or that there is no source, is reported once as fatal; parsing returns; and what it does with a document does not depend on what the reader has read before.", "quantifier": "every content of any length, every stream in any state, every parser behaviour, every sequence of documents read with one reader", "why_tests_cant": "sizes meet the buffer in any way, streams fail in any way, and a reader is used again after anything", "anchors": ["include/SAX/wrappers/saxexpat.hpp: expat_wrapper::parse, do_parse, reportError", "include/SAX/wrappers/saxlibxml2.hpp: libxml2_wrapper::parse"]}
{"id": "C101", "title": "several xsl:output are merged", "statement": "A transformation is serialized with the parameters that all xsl:output of the stylesheet and of what it includes and imports declare together: for each the value given with the highest import precedence, and of several the last, or else its default; the elements with CDATA sections are those any of them lists; attributes of other namespaces do not matter; and exactly the declarations with errors are refused.", "quantifier": "every sequence of xsl:output elements with any attributes and import precedences", "why_tests_cant": "which declarations a stylesheet and its imports have, and which attributes each, is unbounded", "anchors": ["include/XSLT/impl/handler/xslt_output_handler.hpp: OutputHandler", "include/XSLT/impl/handler/xslt_value_validation.hpp: AttributeValidators::gather", "include/XSLT/impl/xslt_compiled_stylesheet.hpp: output_settings"]}
{"id": "C102", "title": "messages do not change the result", "statement": "A transformation with xsl:message gives the same result as the same instructions without the messages, wherever they stand; what is written to the error stream is the content of the messages, in the order they are reached, and the warnings; a message that terminates, and nothing else, ends the transformation, right behind its content and with an exception.", "quantifier": "every tree of instructions that make output with messages anywhere in it, also in messages and in content of attributes, comments and variables", "why_tests_cant": "where messages stand and what they and the instructions around them contain is unbounded", "anchors": ["include/XSLT/impl/xslt_message.hpp: Message", "include/XSLT/impl/xslt_execution_context.hpp: ExecutionContext::sink, redirectToMessageSink, revertFromMessageSink", "include/XSLT/impl/xslt_output.hpp: Output::warning"]}
