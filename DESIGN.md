# Formal model of Arabica in Lean 4: design

The subject is the C++ toolkit in /repo (SAX helpers and filters, DOM, XPath,
XSLT, Taggle, code conversion facets, URIs). The model lives in `lean/Verif`:

* `Verif/Model/*.lean`  the code, function by function. Each definition cites file and lines.
* `Verif/Spec/*.lean`   small specifications written without looking at the model's helpers.
* `Verif/Lemmas/*.lean` helper lemmas (nothing to read there).
* `Verif/Props/*.lean`  the property theorems, each with a non-vacuity example, and
  for properties the code violates, the negation with a concrete witness.

## Modelling conventions

* Functions are total and computable. C++ exceptions are constructors of a result type.
  Undefined behaviour (out of bounds access, null dereference, modification of an empty
  container's end, non-strict-weak comparator) is a distinct outcome `ub`, never a default value.
* Loops are structural recursion or fuel-free well-founded recursion; where the C++ loop may
  not terminate the model carries fuel and the theorem says for which inputs fuel suffices.
* Strings are lists of code units (`List Char` or `List Nat`/bytes). The string adaptor
  (`include/Arabica/StringAdaptor.hpp`) is taken to be the `std::basic_string` instance.
* Heap objects (DOM nodes) are natural number identifiers in a store.
* Allocation failure, integer overflow of sizes beyond 2^31 and concurrency are not modelled
  unless a theorem says so.
* Doubles are abstracted: NaN, the two infinities and exact rationals, or an arbitrary linear
  order with NaN added. Rounding of double arithmetic is not modelled.

## Plan per property

| id | what is modelled | how it is proved |
|---|---|---|
| C01 | do_out/do_in state machines of base64codecvt over explicit buffers | state invariants, induction on groups of three bytes; negation witness for a trailing NUL, partial theorem for the rest |
| C02 | same | refinement to an RFC 4648 specification; partial for the same reason |
| C03 | rot13 table and loops | kernel check of the whole 256 entry table, lifted by induction over strings |
| C04 | do_out with a list of buffer capacities, resumption loop | invariant relating partial runs to the one-shot run |
| C05 | ucs2_2_utf8, utf8_2_ucs2 | spec encoder by code point ranges, induction over the string |
| C06 | utf16_2_ucs2, ucs2_2_utf16 | induction |
| C07 | iso88591_2_utf8, utf8_2_iso88591 | induction |
| C08 | same decoders, reads past the end give `ub` | negation witness; partial: well formed input never reads outside |
| C09 | the range tables and predicates | spec: production range lists; equality for every code point by interval reasoning |
| C10 | is_ncname, is_qname, parseQName | spec by productions (concatenations), induction |
| C11 | text_escaper, attribute_escaper | unescape function in the spec, induction |
| C12 | normalize_whitespace loop | spec by splitting into words, induction |
| C13 | absolutise, combinePath | spec by segments; UB/exception witnesses; partial |
| C14 | parse, as_string | round trip where it holds; witnesses where not |
| C15 | store of nodes with parent, sibling and child pointers, edit operations | invariant preserved by every operation, induction over histories |
| C16 | same | refinement to operations on child lists |
| C17 | same | negation witness; partial for appendChild/removeChild |
| C18 | document edit overrides with cached root | negation witness (replaceChild by a comment); partial invariant |
| C19 | normalize on trees | induction over trees |
| C20 | NamedNodeMapImpl, AttrMap: positions, owners, orphans | refinement of histories of calls to finite maps, with node names, expanded names or both as keys; witnesses where the code is no map |
| C21 | CharacterDataImpl | case analysis against the DOM definition |
| C22 | splitText | as C16 |
| C23 | ElementByTagImpl with change counter over the node store | every elementary change keeps the child lists of a document's nodes or counts up (by cases), lifted to histories; the collected list has exactly the matching elements in document order, and is the only such list; witnesses for item after an edit, setPrefix, entity references, elements without namespace |
| C24 | TreeWalkerImpl over trees, with any filter | the mutually recursive searches compute heads and lasts of lists of the view (induction over trees), the lists are sorted and have exactly the nodes of the view; witnesses for nextSibling, previousNode, parentNode at the root, unexpanded entity references |
| C25 | cloneNode and importNode on the node store extended with names, attributes, entities | an invariant of all histories; the loops append only new nodes to new nodes (induction over the fuel), and by induction over the tree a node shows the copy shows it too; clones of documents by a second invariant; witnesses for what is lost |
| C26 | EventTargetImpl, EventImpl: registration and dispatch; listeners may stop the event | induction over histories and ancestor chains; witnesses for removal and stopping |
| C27,C28 | NamespaceSupport | refinement to a stack of finite maps; witnesses for reverse lookup |
| C29 | AttributesImpl | refinement to lists |
| C30 | TextCoalescer | invariant over event sequences; witness for endDocument |
| C31 | Writer | spec parser inverts the writer |
| C32 | XMLBaseSupport | stack refinement |
| C33 | SAX2DOM behind the text coalescer, on the node store of C25 | a document is given by its content, its events and its tree are functions of that; by induction over the content, with the text that waits in the coalescer and the text before it generalised, the events build the tree; the document type and the entities by an invariant; witnesses for what is built wrongly |
| C34 | streamCDATA | witness for two occurrences; partial for at most one |
| C35 | axis walkers over trees (Model/XTree, Model/XPathAxes; spec Spec/XPathAxes) | least-element method: each move reaches the next node of the axis; namespace axis by induction upwards |
| C36 | compareNodes over a world of trees (Model/XPathNodeSet; spec Spec/XPathNodeSet) | order theorems; witnesses for fragments and counters |
| C37 | NodeSet with its flags, union (Model/XPathNodeSet); std::sort is any function that keeps its promise | invariant over all histories of calls |
| C38 | nodeStringValue | the descendant axis is a sorted list, hence the preorder listing; induction over trees |
| C39 | comparison functions over an abstract ordered number type with NaN | case analysis, min/max lemmas; empty set gives `ub` |
| C40 | string functions | spec by list functions; witnesses for translate and substring |
| C41 | applyPredicates, node tests, steps, filter expressions | induction over lists; uniqueness of the filtered list |
| C42 | relative, absolute and filtered paths | relational composition over C35 and C37; violations |
| C43 | NaN_aware_modulus over rationals | witness; partial for integers |
| C44 | Precedence | lexicographic order lemmas |
| C45 | add_template, prepare, doApplyTemplates | selection equals the specified maximum |
| C46 | Sort comparators, stable sort | strict weak order, stability |
| C47 | VariableStack | refinement |
| C48 | NamespaceStack, Output | witness for clashing prefixes; partial |
| C49 | escape, end_comment | string induction |
| C50 | Taggle parser as a consumer of scanner calls, any schema | invariant: the events so far are those of a document with the stack's elements open |
| C51,C52 | the convert loop of the stream, do_length of each facet | witnesses for truncated input; partial for complete sequences |
| C53 | escapers composed with the line end rule of XML | witness for CR in text; proved for attributes |
| C55,C56 | Output as a state machine run by an instruction language | induction over instructions with an invariant of the pending element |
| C59 | freezeTopLevel with closures, caches and resolution stacks | invariant of active references; measure of free references |
| C60 | PYXWriter | spec line reader inverts the writer; witnesses for backslash and instructions |
| C61 | WhitespaceStripper after TextCoalescer | per event, and for streams up to the cutting of text; witness without the coalescer |
| C62 | NamespaceTracker over the SAX NamespaceSupport model | refinement to a list of scopes |
| C63 | Stream.hpp: prefix stack, declarations, node writer | namespace aware spec reader inverts the writer; witnesses for prefixes in conflict |
| C64 | checkName, checkPrefixAndNamespace, the constructors of ElementNSImpl and AttrNSImpl | case analysis against the rules of DOM Level 2; witnesses for strings that are no names |
| C65 | the same with HTMLScanner and HTMLSchema | every element has a place (checked on the whole schema), each turn of the scanner consumes input or leaves a state for good |
| C66 | makeName, setAttribute, comments, instructions | invariant on the events and on the scanner's buffer |
| C67 | pcdata, the scanner's text and reference states | the text reported so far and the buffer are the text of the source read so far |
| C68 | decl, split | the loop of split on a normalised declaration |
| C69 | the callbacks of the Expat wrapper: start and end of elements, names, declarations | the contexts stand for the declarations in scope; induction over the document shows the exact events and that the state is restored |
| C70 | the Spirit grammar for expressions as parser combinators, and the compilation of its trees | mutual induction over the grammar's expressions: at each level of precedence, before what may follow, the rule takes exactly the expression's text and its tree compiles to the meaning |
| C71 | the grammar of match patterns, the steps they are compiled to, the rewriting of predicates and `MatchExpr::evaluate` over C42's paths | the trees of a pattern's tokens by induction over its steps; the compiled path goes up what the expression's path goes down; a rewritten predicate is the child axis with the predicates up to it |
| C72 | `defaultPriority` over the grammar's trees | with the trees of C71 |
| C73 | `StreamSink` behind the `Output` of C48, C55, C56: every call writes a piece of text | the XML reader of C53 is run over the text; invariant: the reader's state is that of the sink (start tag open, in a section, in content), by induction over the calls, whose form comes from invariants of `Output` |
| C74 | the same with the text method | invariant over the instructions: only text reaches the sink |
| C75 | `evaluate` of every kind of expression with the core functions, over the trees, node-sets and paths of C35 to C43 and the compiled expressions of C70 (Model/XPathEval; spec Spec/XPathEval) | mutual structural induction over expressions, arguments, predicates and steps: evaluation ends with a value that represents the one meant; a second induction shows that bracketed paths may be written out, which joins it to C70 |
| C76 | the grammar of attribute value templates, their compilation to `concat` and evaluation (Model/XPathTemplate; spec Spec/XPathTemplate) | induction on the text over the pieces, with the parsing lemmas of C70 for expressions before a closing brace and C75 for their values |
| C77 | `xsl:key` declarations, the map made at the first look up in a document, and `key()` (Model/XsltKey; spec Spec/XsltKey) | an invariant of the cache of every key (each map has the right nodes in order), kept by every look up; node-set lemmas of C37 for several keys and for node-set arguments |
| C78 | `execute`, `applyTemplates`, `callTemplate`, the built-in rules and the instructions of a template, with the context, the variable stack and the output of C48 (Model/XsltRun; spec Spec/XsltRun) | the specification is an inductive relation between what is instantiated and the output instructions it gives; by induction over it the run ends, writes them and leaves context, scopes and parameters as they were, up to the position; expressions by C75, children by C35, output by C48 and C55; sorting by uniqueness of the stable arrangement (C46) and its agreement on keys that are equal on the nodes; global variables by induction on how they refer to each other, with two facts about expressions: a value depends only on the variables that are mentioned, and more variables do not change what has been evaluated; uniqueness by a second induction |
| C79 | the handler stack of the stylesheet compiler: `StylesheetHandler`, the handlers of all instructions, templates, keys, variables, sorts and foreign elements, and the checks of attributes (Model/XsltCompile; spec Spec/XsltCompile) | for each handler the run over the events of its children is the specification of its content, by strong induction on the size of the document with the rest of the stack and of the events arbitrary; the attribute checks are shown once to find what the specification finds; templates by a second induction over the children of the stylesheet element with the names so far distinct |
| C80 | the whole processor: the compiler of C79 with the parsers of C70, C71 and C76 and the names of C10 in it, the compiled instructions as C78 runs them, and the search for a rule among the compiled patterns (Model/XsltProcess; spec Spec/XsltProcess) | the specification compiles the document with every text left as it is written and then says what each text is; by induction over the document the compiler with the library's parsers gives the same instructions, with expressions equal up to brackets; the rules of the library correspond one by one to those of the specification by C71 and C72, and a stable sort of the reversed list finds the one 5.5 asks for; C78 was generalised to stylesheets that are alike in this sense |
| C81 | the sink that builds a DOM, under the output state machine of C48 (Model/XsltDomSink; spec Spec/XsltDomSink) | an invariant relating the open elements of the sink, each with its attributes and children so far, to the events sent; the state machine's events for a result are those of C73; the nodes of the tree, read in document order, are the events with adjacent text joined |
| C82 | the value of a variable with content, from the fragment of C81 (Model/XsltVariableContent; spec Spec/XsltVariableContent) | the fragment of C81 is shown to be a tree as the XPath theorems want it, by an invariant of the sink; the node the string is taken from is the first child by C37, its string value that of C38 |
| C83 | the handler of xsl:include and xsl:import with the base tracker, over any map from names to files, with fuel and undefined behaviour as an outcome (Model/XsltInclude; spec Spec/XsltInclude: includes put in place, and the import tree, as inductive relations) | invariant of the base stack between items; induction on fuel one way and on the derivation of the spec the other; the stack of imports by continuation; ending by the length of ways without repetition |
| C84 | the buffers of convert_bufadaptor with the pointers into them, over the conversions of C03 to C08, with fuel and undefined behaviour (overlapping memcpy, pointers in front of the buffer) as an outcome (Model/ConvertAdaptor; spec Spec/ConvertAdaptor: a cursor over the characters, what is written) | one law for decoders on encoded characters cut anywhere; induction on what is left of the content for the loop that fills the buffer, on blocks for the whole; invariant between buffer and cursor for putting back; induction on writes and flushes |
| C85, C86 | readers, filters and handlers as objects that point to each other; a class of filters is any function from the calls so far to the calls made; a program is any function from the calls so far to setters called and exceptions thrown; endless recursion and null pointers are outcomes (Model/SaxReader; spec Spec/SaxReader: the composition of the filters on the whole list of calls, and handlers called one after the other) | induction on the chain, and in it on the calls, that calls through wired filters give the composition; induction on the chain that a parse wires it; induction on settings |
| C87, C88 | the functions of XSLT that ask: parsing the name, the tables of names, the resolver of functions; nodes are at addresses, any injective function, and pointers are printed in hexadecimal (Model/XsltAvailable; spec Spec/XsltAvailable: expanded names, the lists of instructions and functions of the recommendations) | the tables are compared whole; for each instruction an element the compiler of Model/XsltCompile takes; hexadecimal is injective by strong induction; the first node by C37 |
| C89 | the map of aliases while a stylesheet is compiled, the names given to literal result elements, and what becomes of them when they are executed (Model/XsltAlias; spec Spec/XsltAlias: the last alias for a namespace, expanded names) | induction over the stylesheet, invariant: the map knows the last alias of each namespace; made up prefixes are names |
| C90,C91 | the map of resolvers, opening an input source, the resolvers for files and http without the sockets (Model/InputSource; spec Spec/InputSource: the last resolver of a history, addresses by their parts, a response by its lines) | induction over the history, over the header lines, and over the length of what a server sends |
| C92,C93 | the Expat wrapper's callbacks for declarations and the writer's calls for document types (Model/Dtd; spec Spec/Dtd: the grammar of content models of XML 1.0, what SAX says is reported, a reader of document types) | induction over content models for the grammar, and for the grammar being unambiguous; what is written is taken apart into the sentences the reader sees, one per declaration, by induction over the declarations |
| C94,C95 | socket streams, with the functions of `std::basic_streambuf` that call them; the operating system is a schedule of what recv gives and send does (Model/Socket; spec Spec/Socket: a cursor over what arrives, what is written) | an invariant that the buffer holds the bytes around the cursor, by induction over the calls; that pieces never overlap, or do, by induction over the pieces; what is sent and what waits is what was written; a simulation for errors |
| C96 | default attributes: the declarations, new elements, what is put back on removal, clones, parsed elements (Model/DefaultAttr; spec Spec/DefaultAttr: a map from names to values given or declared) | a simulation by induction over the calls; the exemplar of an element by induction over the declarations |
| C97 | handles of streams: the counters on the heap, the three members of each handle, the streams deleted (Model/IStreamHandle; spec Spec/IStreamHandle: what each handle holds) | an invariant by induction over the calls: each counter is the number of handles that use it, handles share a counter exactly if they share what they own |
| C98 | finding elements by ID: the names declared, the attributes of elements with their owners, the set of ID attributes in the order of any placing in memory, what purging deletes (Model/ElementId; spec Spec/ElementId: attributes by name and the place of each element) | an invariant by induction over the calls: attributes with names of IDs are in the set; and, if these are never removed, nothing else is |
| C99 | references to external entities: the map from identifiers to names, through all documents of a reader, what the handlers are told, what is opened (Model/ExternalEntity; spec Spec/ExternalEntity: a relation between what expat reports and what SAX has) | by induction over what expat reports, with references nested: every identifier in the map has the name of an entity declared with it |
| C100 | reading documents with expat and libxml2: the loops, the flags of the stream, the reader used again; the parser is any function (Model/ParseLoop; spec Spec/ParseLoop: the content is given piece by piece to its end or to an error) | by induction over the turns of the loop, which are as many as the length needs; that a loop does not end by induction over any number of turns |
| C101 | declarations of the output: attributes checked and gathered, lists of elements read, all declarations in the order they are compiled (Model/XsltOutputDecl; spec Spec/XsltOutputDecl: the value in effect, the union of lists, what is valid) | by induction over the attributes and the declarations; words of a list by what is proved of normalizing white space |
| C102 | messages and warnings over the output of C55: which of two outputs is written to, warnings given to the output of messages or through a null pointer, exceptions (Model/XsltMessage; spec Spec/XsltMessage: the instructions without messages, the contents of messages, whether one terminates, where instructions may stand) | by induction over the tree of instructions, for every state: a frame for what never changes, then one induction each for the result, for the messages, and for that nothing is warned of if both outputs are at places from which all they are given is proper |
| C57,C58 | add_template, callTemplate, doApplyTemplates with its mutable current rule | refinement of a specification with a lexical current rule; induction over the templates read |
| C54 | node store with orphan set and destructors | invariant over histories, disjointness of subtrees |

## Trusted base

Lean 4.33.0's kernel; the axioms `propext`, `Classical.choice`, `Quot.sound` as printed by
`#print axioms`; the reading of the C++ source that the model's citations record. Nothing in
the model is executed against the C++ code (the sandbox cannot build it).

### What is modelled, what is not

Modelled (see the citations in each file): base64, rot13, UTF-8/UCS-2, UTF-16/UCS-2 and ISO-8859-1
code conversion facets and the convert stream loop; XML character classes, names and qualified
names; the text and attribute escapers and white space normalisation; URI parsing, printing and
resolution; NamespaceSupport, AttributesImpl, XMLBaseSupport and the XMLBaseTracker's lookup; the DOM
node store with node creation, insertBefore, appendChild, replaceChild, removeChild, purgeChild,
setReadOnly and destruction, normalize, character data editing and splitText; XPath numbers, string
functions and comparisons; XSLT import precedence, xsl:sort, the output state machine with its
namespace stack, template rules, named templates, apply-imports,
variables and parameters; the XPath axis walkers over DOM trees, the
comparison of nodes, node-sets and unions, string values, node tests, predicates and location paths, the tree walker, the lists of elements by name, the SAX filters (coalescer, white space, PYX, namespace
tracker) the SAX writer (its document type calls apart, in C93)
the DOM stream writer (without document type nodes),
the checks on names, the attribute maps (without default attributes) and
event dispatch (without listeners that change registrations); the Taggle parser, its HTML scanner with its state
table, and the HTML schema with all its tables (without the positions the scanner reports);
cloneNode of all nodes, importNode and createEntityReference, with attributes as nodes of the store (without default attributes and
ID attributes); the SAX to DOM parser (without default attributes, ID attributes and internal entities with markup); the Expat wrapper's callbacks for the content of documents; the XPath grammar and
the compilation of expressions; match patterns without `id()` and `key()`, their default priorities and what they match; the
stream sink of XSLT without `disable-output-escaping`; the sink of XSLT that builds a DOM, and the values of variables with content; reading a stylesheet of several files; streams that convert; chains of filters and features of readers; asking what the processor has; generate-id; namespace aliases; opening input sources, without sockets; declarations of document types; socket streams over any schedule of recv and send; default attributes of elements; handles of streams; finding elements by ID; references to external entities; the reading of documents; declarations of the output; messages and warnings; the evaluation of expressions with the core functions, without the namespace
axis and without function resolvers; a stylesheet document compiled and run as a whole (Model/XsltProcess, for the
instructions of C78); the execution of stylesheets (the instructions listed in Model/XsltRun, with
`apply-imports` and keys in models of their own); the compilation of stylesheets to instructions (without
`xsl:output`, `xsl:import`, `xsl:include` and `xsl:namespace-alias`, with expressions, patterns, templates and names as parameters).

Not modelled: the parser back ends (Expat itself, Xerces, libxml2, MSXML), input streams and sockets,
locales and `std::codecvt` machinery beyond the virtual functions named, memory management,
`boost::lexical_cast`, rounding of floating point arithmetic and negative zero.

The model of the XPath grammar takes Boost Spirit Classic's behaviour as given: `|` takes the first alternative that
matches, `*` is greedy and does not give back, `a - b` compares lengths, `discard_node_d` drops nodes, a rule with one
node hands it on and matches of the empty string leave no node. Numbers stay strings in it.

## Findings: where the code does not have the property

Each is proved as a theorem with a concrete witness.

* C01, C02: base64 output loses a trailing NUL of a short final group (`C01_violated`, `C02_violated`).
* C08: the UTF-8 to ISO-8859-1 decoder reads past the end of truncated input (`C08_iso_violated`).
* C10: names in UTF-8 byte strings with any non-ASCII character are rejected (`C10_bytes_violated`).
* C13: resolution against a base without a path dereferences the end of an empty string (`C13_ub`);
  `./` before `../` goes up from the wrong place, a final `.` or `..` is kept, network path references
  are taken as paths, relative bases throw `out_of_range` (`C13_violated_*`).
* C14: drive letters, a port without a host and empty authorities do not survive printing (`C14_violated`).
* C15: `doc.appendChild(doc)` succeeds and makes the document its own child (`C15_violated`).
* C16: `frag.appendChild(frag)` never returns (`C16_ends_violated`).
* C17: failing calls have already moved nodes: `insertBefore(c, c)`, an absent reference child,
  `replaceChild(c, c)`, a fragment with a child that is refused (`C17_violated_*`).
* C18: `getDocumentElement` returns a removed or deleted node after the root element is replaced by a
  comment or purged (`C18_violated_*`).
* C22: `splitText` of a text node without parent leaves the rest in a node that is not even deleted with
  the document; of a CDATA section without parent it dereferences null (`C22_violated_*`).
* C54: a document type whose insertion fails after it was adopted is never deleted (`C54_violated_doctype`).
* C27: a second declaration of a prefix in one context is ignored but reported as done (`C27_violated`).
* C28: reverse lookups return shadowed prefixes and list prefixes twice (`C28_violated`).
* C29: setting an attribute list from itself empties it (`C29_violated`).
* C32: the tracking filter answers with the document location inside an element with its own base;
  a relative base before the location is known is undefined behaviour (`C32_violated_*`).
* C51, C52: a truncated multi-byte character makes the convert stream loop for ever; `do_length` takes
  the maximum where a minimum is meant (`C51_violated`, `C52_violated`).
* C53: a carriage return in text is written raw and read back as a line feed (`C53_violated`).
* C39: an order comparison of two node-sets one of which is empty reads the first element of an empty
  vector; a node-set and a boolean are compared by the string values (`C39_violated_*`).
* C40: `substring` throws when the start is beyond the end and casts an infinite double to int;
  `translate` reads characters it has already overwritten after a deletion; `string-length` counts bytes
  of narrow strings (`C40_violated_*`).
* C43: `mod` drops the fractions of its operands (`C43_violated`).
* C48: names in the result change their namespace when two attributes of an element use one prefix for
  two namespaces, when an element in no namespace is inside a default namespace, and when a prefix is
  redeclared in between; copied attributes bring undeclared prefixes and duplicates (`C48_violated`).
* C57: `current_mode_` and `current_generation_` are not restored when a nested rule ends, so that
  `xsl:apply-imports` after an `xsl:apply-templates` looks in the wrong stylesheets (`C57_violated`).
* C58: two templates of one name and precedence are accepted if one of higher precedence was read before
  (`C58_violated`).
* C47: `xsl:copy`, `xsl:comment`, `xsl:processing-instruction` and `xsl:message` make no scope, so that
  their variables stay visible and clash with those of siblings; a template called in the content of an
  `xsl:with-param` is given the parameters before it; a parameter declared both in a stylesheet and in one
  it imports cannot be set (`C47_violated_*`).
* C59: a global variable that refers to itself through a template recurses without end (`C59_violated`).
- **C35** (`C35_violated_*`). The child axis of an attribute gives the text node inside it. The following axis in
  a document fragment or a detached tree follows a null pointer at its end (the loop stops at the owner
  document only). The preceding axis gives a run of adjacent text nodes twice when the run ends a preceding
  element (by its last piece and by its first). Document type nodes are on the child and descendant axes. A
  namespace declared again further down is given twice, once with the hidden binding, and nodes that are not
  elements have an `xml` namespace node.
- **C36** (`C36_violated_*`). `resolve_different_subtrees` compares `lp` with itself, so nodes of two fragments (or
  detached trees) of one document are never less than one another: no strict weak order, and `std::sort` is
  undefined. The thousandth attribute of an element compares equal to its first child (positions 1000 and
  1000), later ones come after it. From 2147485 siblings on the difference of positions overflows `int` and
  the last sibling is before the first.
- **C37** (`C37_violated_union`). A union with an empty node-set returns the other operand as it is, for instance
  in reverse document order.
- **C42** (`C42_violated_*`). A path whose last step is on a reverse axis (or `parent`) gives its nodes in reverse
  document order. A filter expression with two or more predicates, `(//x)[a][b]`, gives them in reverse document
  order: the node-set made by `applyPredicate` takes its direction from `forward()`, which is false of the
  unsorted set the first predicate made. An absolute path evaluated inside a document fragment starts at the
  document the fragment belongs to.
- C24: `TreeWalker::nextSibling` calls the search for the previous sibling; `previousNode` returns null at the first
  child of a node (it asks for the parent of a null pointer), and after going to a previous sibling goes down one
  level only; `parentNode` never goes to the root of the walker even if it is accepted; where entity references are
  not to be expanded and are skipped, the walk ends at the first one that has children.
- C23: `item` compares the index with the size of the old array before bringing it up to date: an element added since
  is not found (null), and after a removal it reads past the end of the array.  `setPrefix` changes the tag name
  without counting as a change.  Elements inside entity references are not found, and
  `getElementsByTagNameNS` with the empty namespace finds nothing, since elements without namespace fail
  `hasNamespaceURI`.
- C30: `startPrefixMapping`, `endPrefixMapping`, `skippedEntity` and `endDocument` are not overridden by the text
  coalescer: they overtake the text held back.
- C31: with the default indent of 2 the writer adds white space inside mixed content.  It writes `]]>` in a CDATA
  section and `--` in a comment as they are.
- C60: the PYX writer escapes line feeds as `\n` but not backslashes, so the two texts backslash-n and line feed give
  the same line; the data of a processing instruction is not escaped at all.
- C61: the white space filter works on each event by itself, so `a b` cut between the letters and the space loses the
  space.
- `SAX/filter/TextOnly.hpp` is not modelled: it uses the undeclared types `stringT` and `AttributesT`, so it cannot be
  instantiated.
- C33: comments and processing instructions in the document type become children of the document; empty CDATA sections are
  lost.  A reference within an internal entity unbalances `inEntity_`, as `startEntity` does not count while nothing is built
  but `endEntity` does: `<!ENTITY a "&b;">` gives both the expansion and the unexpanded value, and from then on the text of
  every entity is there twice.  References within external entities give their text twice.  Parameter entities, reported as
  `%name`, make the parse fail, because `endEntity` makes an entity reference of that name.  A parser used again still knows
  the entities of the first document (`declaredEntities_` is not cleared): the second parse fails, or uses freed memory if
  the first document is gone.  After an element the DOM refuses, the end of an entity uses the null node.  `setDTDHandler`
  is never called, so notations and unparsed entities are never in the DOM.
- C34: with two occurrences of `]]>` in a CDATA node `streamCDATA` passes the position of the second one to `substr` as
  a number of characters: characters are written twice, and a section contains `]]>`.
- C63: writing a DOM node loses namespaces: an element in no namespace below a default namespace, an attribute in
  the namespace written as the default, a prefix that an inner element binds to another namespace; an element and an
  attribute with one prefix for two namespaces, or a prefix like the generated `a0`, give a tag with an attribute twice.
- C64: `createElement` and the others accept any nonempty string of name characters: `1a`, `-`, and with
  namespace `:a`, `p:` and `p:a:b`. With byte strings every byte of a character outside ASCII is negative after sign
  extension, so no such name is accepted.
- C20: `getAttribute` and `removeAttributeNode` go by node name, which two attributes of different namespaces may share:
  the wrong one is read or removed. A removed attribute keeps its owner element, so removing it again removes whatever
  attribute has its name now. An attribute of another document is refused after it was marked as owned: trying again
  seems to work, and no other element takes it any more. `setAttributeNodeNS` of an attribute without namespace data
  replaces any other such attribute. (`setAttribute` puts a new node in place of the old one, so a handle on the old
  attribute does not see the new value; the property allows that.)
- C25: a clone looks its attributes up by namespace and local name or, if they have no local name, by node name, so of two
  attributes with the same node name one is lost. An element named `p:` in a namespace is imported without
  the namespace. The data of a processing instruction is checked when it is made or cloned but not when it is set, so
  that `cloneNode` may throw. The clone of an entity reference has the children of the entity as it is now. The clone
  of a document has the document type first and no entities, so its entity references are empty.
- C26: `removeEventListener` only removes the listener registered first for the type: the loop returns in its first
  round. An event stopped by a listener of the target still reaches the listeners of the target's parent.
  `stopPropagation` is ignored if the event cannot be cancelled. No class of the Simple DOM derives from
  EventTargetImpl, so `EventTarget(node)` throws NOT_SUPPORTED_ERR for every node.
- C66: references in attribute values are expanded to single bytes of any value (`&#1;`, and for `&eacute;` a lone byte
  that is no UTF-8); a prefix used by the element and an attribute, or by two attributes, is declared twice.
- C67: named references to characters beyond ASCII are dropped or changed, their values being kept in signed bytes
  (`&eacute;`), and so are references to control characters, which the scanner means to turn into a space (`&#10;`);
  the number of others is cut to a byte (`&#321;` becomes `A`). `]]]>` does not end a CDATA section, and one without end is lost.
- C68: `split` passes the end of a word to `substr` as a number of characters, so `<!DOCTYPE html PUBLIC "p" "s">` is
  reported as the name `html PUBLIC ` without identifiers. `doctypeIsPresent_` is never reset, so a parser used again
  does not report the document type.
- C69: `endElement` of the Expat wrapper reports the end of all mappings of the innermost namespace context, also for an
  element that made none: `<r/>` reports the end of the mapping of `xml`, and every child without declarations ends its
  parent's mappings. An attribute `xmlnsfoo` declares the default namespace. `xmlns:xml`, which namespaces allow, is an
  error. After a document that is not well-formed the open contexts stay, so the next document starts in its namespaces.
  Also seen: parameter entities are reported without `%`, and external entities are remembered by system identifier, so
  of two with the same one only the last name is reported.
- C70: the XPath grammar has no `S` in places where XPath allows white space: between minus signs (`- -1`) and around `.`
  and `..` in paths (`.. / a`, `a/ ..`), so these are refused. The `S` nodes before the target of
  `processing-instruction( 'x')` hide the target from `getTest`, which then tests for any instruction. `getTest` looks at
  the node after `processing-instruction()` without asking whether it belongs to the test, so
  `f(processing-instruction(),'x')` tests for the target `x`. `createStepList` skips the `/` of `(/)/a`, which becomes
  the relative path `a`. Operators that are names need not end: `a orb` is `a or b`. Names are made of ASCII letters only.
- C71: match patterns are matched from right to left, with `//` as the ancestor-or-self axis: `a//a` matches every `a`. A
  predicate counts positions only if its type is a number or it has `position()` or `last()` as an operand, so
  `*[$n]` and `*[not(position()=1)]` are evaluated with a position of 1. Positions of attributes are looked for among the
  children: `@x[1]` matches nothing. `node ()` and `child:: node()` match the root, `processing-instruction('')` every processing
  instruction, and an element without parent matches its name. `node() / a`, `/ @a`, `node() [1]` and `id('x')/a` are refused.
- C72: `a | b` gives `a` the priority -1/2: white space after a name makes a node that is counted as a step. `p:a[x]`, `p:*[x]`
  and `processing-instruction('x')[y]` have the priorities of `p:a`, `p:*` and the target alone.
- C73: `]]>` twice in one text of a CDATA section: `substr` is given an end where it takes a length, so `x]]>y]]>z` is written as
  `<![CDATA[x]]]]><![CDATA[>y]]>z]]><![CDATA[>z]]>`. `]]` in one text and `>` in the next end the section. The document type declaration
  is not written if `omit-xml-declaration` is `yes`, nor if a comment, processing instruction or text comes before the
  document element.
- C74: the text method writes the marks of CDATA sections if `cdata-section-elements` lists an element of the result.
- C75: where XPath asks for a node-set, any other value is taken as an empty one instead of an error: `count('a')` is 0,
  `('a')[1]` is empty. The core functions `id` and `lang` are missing. Evaluated without an execution context `position()` and
  `last()` are -1.
- C76: the empty attribute value template is a syntax error, so a literal result element with an attribute like `b=""`
  is refused.
- C77: attributes that match an `xsl:key` are not found, because only children are walked. If the `use` expression gives
  a string, number or boolean nothing is found. A node for which `use` gives two nodes with one string is in the result
  twice. `current()` in an `xsl:key` is the current node of the first call of `key` for the document. In a predicate over
  nodes of another document `key` searches the document of the current node. A compiled stylesheet keeps what it found
  for a document when the document is changed between two runs.
- C78: when `xsl:for-each`, `xsl:apply-templates` or a called template with one of them has ended, `position()` and
  `current()` are those of the last node it processed, not those of the node of the template. `xsl:copy-of` copies the nodes
  of a reverse axis in reverse document order. `xsl:apply-templates` without `select` processes the text inside an
  attribute. `xsl:copy` of an element made with `createElement` writes an element without a name. In the keys of
  `xsl:sort` every node has the position 1, and nodes of a reverse axis with the same keys stay in the order of the axis.
  `position()` and `last()` in a global variable are -1.
- C79: an attribute of another namespace with the local name of an attribute of XSLT (`x:select`) replaces it;
  `current()` is refused until the first pattern has been compiled; white space is dropped event by event, so a space
  between two references is lost, and `xml:space` is ignored; a variable with both `select` and elements, an empty `select` or `mode`,
  text in `xsl:call-template` and text before `xsl:sort` are accepted; foreign attributes are refused on
  `xsl:choose`, `xsl:otherwise`, `xsl:comment` and `xsl:apply-imports`; `xsl:fallback` and every version but 1.0 are refused; `lang` of a
  sort is dropped; `namespace=""` is taken for no attribute (`C79_violated_*`).
- C81: a transformation that writes nothing into a DOM leaves a null node, not an empty fragment
  (`C81_violated_nothing`); an empty text leaves a text node without text (`C81_violated_empty`); with strings of
  bytes, names and data of processing instructions with bytes above 7F make the DOM throw (`C81_violated_bytes`);
  two attributes of one element with one prefix and local name in two namespaces are mixed up: both values are set on
  the first (`C81_violated_attributes`).
- C82: the value of a variable with content is the set of the top level nodes of its content, not one root
  node. So its string is that of the first node: `a<b>b</b>` gives `a` and not `ab` (`C82_violated_string`; `C82_first` says what it is
  in general). Content that gives nothing is an empty string, which is false and not true
  (`C82_violated_boolean`).
- C83: `xml:base` on the outermost element of the first file is not used for the files it includes and imports, nor is that on
  an `xsl:include` of an included file; that on an `xsl:include` of the first file is used for everything after it
  (`C83_violated_base`). An `xsl:import` after other elements is accepted (`C83_violated_order`). If an included file
  that includes another is not well-formed, or an imported one that imports another, the name in the message
  of the exception is read through a reference into a vector that has been moved (`C83_violated_dangling`).
- C84: `readIn` keeps the last four characters by pointers moved by a number of bytes in an array of characters. With `wchar_t`
  of four bytes content of 2 to 15 characters makes it read in front of the buffer or copy between places that
  overlap (`C84_violated_wide`), as does a last block of less than 16; and what is kept is not what was read (`C84_violated_unget`).
  With `char` a later block of 1 to 3 characters makes the places overlap (`C84_violated_rot13`). If the content ends in the middle of a
  character the characters before it in the block are lost, without an error (`C84_violated_cut`). ISO-8859-1
  longer than 1019 bytes of UTF-8 cannot be read as UTF-8: nothing is read (`C84_violated_iso`), as the conversion stops one byte before
  the end of the buffer, which is taken for a lack of input. A flush in the middle of a character never ends
  (`C84_violated_flush`).
- C85: `XMLFilterImpl` always sets itself as error handler, and its default handler throws on fatal errors, while a parser
  without an error handler ignores them and reports the end of the document: a filter that changes nothing turns silence into an
  exception (`C85_violated_silent`). `parse` without a parent follows a null pointer (`C85_violated_parent`).
- C86: setting `namespace-prefixes` to true turns on `namespaces` (`C86_violated_bound`); both can be off, in one order of
  settings (`C86_violated_off`); the two features for external entities are one (`C86_violated_external`). An exception
  thrown by a handler leaves `parsing_` set, and so no feature can be set on the reader ever after (`C86_violated_thrown`).
- C87: `element-available` is true of names in no namespace (`C87_violated_null`) and, like `function-available`, takes a
  prefix that is not declared for none (`C87_violated_prefix`); it is true of `xsl:fallback` and `xsl:number`, which no
  stylesheet can contain (`C87_violated_fallback`); `function-available` is true of `unparsed-entity-uri`, which no
  expression can call (`C87_violated_unparsed`). `id`, `lang` and `format-number` are missing (`C87_violated_missing`).
  `system-property` looks at the prefix, not at the namespace (`C87_violated_property`).
- C88: an id begins with the digit 0 and so is no XML name (`C88_violated_letter`).
- C89: an alias to `#default` gives elements a name that begins with a colon, and executing one throws
  (`C89_violated_default`); so for attributes put into no namespace (`C89_violated_none`). An alias does not hold for
  elements before it (`C89_violated_order`). The prefixes the compiler makes up for attributes are also those the output
  makes up: two attributes in two namespaces can share one, declared once (`C89_violated_clash`).
- C90: an address whose resolver fails, or whose scheme has none, opens the local file of its path, so
  `http://host/etc/passwd` reads `/etc/passwd` (`C90_violated_local`). Names of files with a colon or a backslash open
  another file (`C90_violated_colon`, `C90_violated_backslash`), and so does a `file:` address of a file that is not
  there; for `/` it reads beyond the end of a string (`C90_violated_windows`).
- C91: the loop that skips the header never ends if no line begins with a carriage return, whatever else the server
  sends, or if a header line has more than 1023 characters (`C91_violated_endless`, `C91_violated_long`). A newline in an
  address is copied into the request (`C91_violated_inject`). The status is not looked at.
- C92: mixed content with elements is reported as `(#PCDATAa|b)*`, which is the text of no content model
  (`C92_violated_mixed`). A default value alone is reported as `#IMPLIED` with the value (`C92_violated_default`), a
  parameter entity as the general entity of its name (`C92_violated_parameter`).
- C93: the writer fed by the reader therefore writes `a CDATA #IMPLIED "v"`, which cannot be read
  (`C93_violated_default`). The name of a parameter entity is written as `%n`, without the space
  (`C93_violated_parameter`); empty default values and system identifiers are left out (`C93_violated_empty`); quotes and
  markup in values are written as they are (`C93_violated_quote`).
- C94: before each `recv` up to four bytes are moved to the front of the buffer with `memcpy`; if the last piece was
  shorter than that, the places overlap, which is undefined (`C94_violated_short`). At the end of the connection the
  buffer is dropped, so nothing can be put back (`C94_violated_end`). An error of `recv` is taken for the end
  (`C94_violated_error`).
- C95: `writeSocket` takes any `send` that does not fail for one that sent everything (`C95_violated_part`). `close` does not
  flush, and what was not flushed is sent to the next host (`C95_violated_close`); bytes are taken while the stream is
  closed (`C95_violated_closed`). Reading the end closes the socket, and what waits is never sent (`C95_violated_end`).
- C96: `getDefaults` sets attributes that have no local name by namespace and local name, so each takes the place of the
  one before, and a new element has only the last of its defaults (`C96_violated_two`). The same call when a default is
  put back after `removeAttributeNS` deletes another attribute (`C96_violated_namespace`). With `<!ATTLIST e xml:lang CDATA
  "en">` and `<e xml:lang="de"/>` the parsed element has two attributes `xml:lang`, and `getAttribute` says `en`
  (`C96_violated_prefixed`). Attributes the parser fills in count as specified (`C96_violated_parsed`). An attribute
  declared twice has the second value, though the first declaration is the one that counts in XML.
- C97: the assignment clears the members of its left side before it reads those of its right side, so a handle assigned to
  itself loses its stream, which is never deleted, and copying that handle dereferences a null pointer
  (`C97_violated_self`).
- C98: nothing is ever taken out of the set of ID attributes: `removeElementId` is not called. So an element is found by an
  ID it no longer has (`C98_violated_changed`), an element that lost its ID may be found instead of the one that has it
  now, by the addresses of the two attributes (`C98_violated_moved`), elements are found that are not in the document
  (`C98_violated_detached`), and after `purgeChild` of an element with an ID, or with one in it, `getElementById` reads a
  deleted attribute (`C98_violated_purged`).  The document type keeps the names of ID attributes without the names of the
  elements they are declared for (`C98_violated_type`).
- C99: names of external entities are looked up by identifier, in one map for public and system identifiers, in which the
  first name stays and which is not cleared between documents.  So entities with the same system identifier are
  reported by the name of the first (`C99_violated_same`), also across documents (`C99_violated_documents`), public
  identifiers are taken for system identifiers (`C99_violated_public`), an empty one is the external subset's
  (`C99_violated_empty`).  Parameter entities are reported without the % (`C99_violated_parameter`).
- C100: the loops that read a document test `eof()` only.  For a stream that failed, as that of a file that is not there,
  or breaks, as that of a directory, they do not end (`C100_violated_fail`, `C100_violated_breaks`); one that is at its
  end already is accepted as a document without error (`C100_violated_eof`).  A handler that throws leaves the reader
  parsing, and the parser where it was: the next document is an error (`C100_violated_throw`).  With libxml2 a source
  that cannot be opened is not reported (`C100_violated_unresolved`).
- C101: `xsl:output` elements are not merged: what the last one compiled does not give is the default
  (`C101_violated_missing`), and as imports are compiled last, what is imported overrides what imports it
  (`C101_violated_import`): in every stylesheet the values are those of the declaration with the lowest precedence
  (`C101_violated_lowest`).  Attributes of any other namespace are taken for those of `xsl:output`, and not checked
  (`C101_violated_foreign`).  A `cdata-section-elements` that is blank is an error (`C101_violated_blank`).
- C102: the output of messages gives its warnings to itself, so that a warning for an element in a comment becomes part
  of the comment (`C102_violated_comment`), and one for an attribute without element is lost
  (`C102_violated_lost`).  The output for the content of a variable or parameter has no output for warnings: an
  attribute there that is in no element, or an element in a comment, is a call through a null pointer
  (`C102_violated_variable`).  An attribute copied in the content of another attribute is not warned of, and becomes an
  attribute of the element (`C102_violated_copied`).
