import Verif.Model.Taggle
set_option autoImplicit false
/-!
# include/Taggle/impl/html/HTMLSchema.hpp: the schema the HTML parser uses

The tables are copied by a script, line by line, with the bit vectors of HTMLModels.hpp and
src/taggle/Schema.cpp worked out; the commented-out lines of the source are left out.
-/
namespace Verif.Taggle

/-- The calls of `elementType`, HTMLSchema.hpp lines 51-158: name, model, memberOf, flags. -/
def elementRows : List (String × Nat × Nat × Nat) := [
  ("<pcdata>", 0x0, 0x40000000, 0), ("<root>", 0x80000000, 0x0, 0), ("a", 0x40008004, 0x1000, 0),
  ("abbr", 0x40001000, 0x9000, 1), ("acronym", 0x40001000, 0x9000, 1),
  ("address", 0x40041000, 0x4, 0), ("applet", 0x40081004, 0x9000, 0), ("area", 0x0, 0x2, 0),
  ("b", 0x40001000, 0x9000, 1), ("base", 0x0, 0x400, 0), ("basefont", 0x0, 0x9000, 0),
  ("bdo", 0x40001000, 0x9000, 1), ("bgsound", 0x0, 0x400, 0), ("big", 0x40001000, 0x9000, 1),
  ("blink", 0x40001000, 0x9000, 1), ("blockquote", 0x40001004, 0x4, 0),
  ("body", 0x40001004, 0x810, 0), ("br", 0x0, 0x9000, 0), ("button", 0x40001004, 0x9000, 0),
  ("canvas", 0x40001000, 0x9000, 0), ("caption", 0x40001000, 0x200000, 0),
  ("center", 0x40001004, 0x4, 0), ("cite", 0x40001000, 0x9000, 1), ("code", 0x40001000, 0x9000, 1),
  ("col", 0x0, 0x200040, 0), ("colgroup", 0x40, 0x200000, 0), ("comment", 0x40001000, 0x9000, 0),
  ("dd", 0x40001004, 0x80, 0), ("del", 0x40001004, 0x100c, 1), ("dfn", 0x40001000, 0x9000, 1),
  ("dir", 0x4000, 0x4, 0), ("div", 0x40001004, 0x4, 0), ("dl", 0x80, 0x4, 0),
  ("dt", 0x40001000, 0x80, 0), ("em", 0x40001000, 0x9000, 1), ("fieldset", 0x40003004, 0x4, 0),
  ("font", 0x40001000, 0x9000, 0), ("form", 0x40409024, 0x104, 4), ("frame", 0x0, 0x200, 0),
  ("frameset", 0x200, 0xa00, 0), ("h1", 0x40001000, 0x4, 0), ("h2", 0x40001000, 0x4, 0),
  ("h3", 0x40001000, 0x4, 0), ("h4", 0x40001000, 0x4, 0), ("h5", 0x40001000, 0x4, 0),
  ("h6", 0x40001000, 0x4, 0), ("head", 0x400, 0x800, 0), ("hr", 0x0, 0x4, 0),
  ("html", 0x800, 0x80000000, 0), ("i", 0x40001000, 0x9000, 1), ("iframe", 0x40001004, 0x9000, 0),
  ("img", 0x0, 0x9000, 0), ("input", 0x0, 0x9000, 0), ("ins", 0x40001004, 0x1004, 1),
  ("isindex", 0x0, 0x400, 0), ("kbd", 0x40001000, 0x9000, 1), ("label", 0x40001000, 0x9000, 0),
  ("legend", 0x40001000, 0x2000, 0), ("li", 0x40001004, 0x4000, 0), ("link", 0x0, 0x1400, 0),
  ("listing", 0x40001000, 0x4, 0), ("map", 0x6, 0x1000, 0), ("marquee", 0x40001000, 0x9000, 0),
  ("menu", 0x4000, 0x4, 0), ("meta", 0x0, 0x400, 0), ("nobr", 0x40001000, 0x9000, 0),
  ("noframes", 0x1014, 0xa04, 0), ("noscript", 0x40001004, 0x4, 0),
  ("object", 0x40081004, 0x9400, 0), ("ol", 0x4000, 0x4, 0), ("optgroup", 0x20000, 0x20000, 0),
  ("option", 0x40000000, 0x30000, 0), ("p", 0x40101000, 0x40004, 0), ("param", 0x0, 0x80000, 0),
  ("pre", 0x40001000, 0x4, 0), ("q", 0x40001000, 0x9000, 1), ("rb", 0x40001000, 0x9000, 1),
  ("rbc", 0x40001000, 0x9000, 1), ("rp", 0x40001000, 0x9000, 1), ("rt", 0x40001000, 0x9000, 1),
  ("rtc", 0x40001000, 0x9000, 1), ("ruby", 0x40001000, 0x9000, 1), ("s", 0x40001000, 0x9000, 1),
  ("samp", 0x40001000, 0x9000, 1), ("script", 0x40000000, 0x7fffffff, 2),
  ("select", 0x20000, 0x1000, 0), ("small", 0x40001000, 0x9000, 1),
  ("span", 0x40001000, 0x9000, 0), ("strike", 0x40001000, 0x9000, 1),
  ("strong", 0x40001000, 0x9000, 1), ("style", 0x40000000, 0x1400, 2),
  ("sub", 0x40001000, 0x9000, 1), ("sup", 0x40001000, 0x9000, 1), ("table", 0x200100, 0x100004, 4),
  ("tbody", 0x400000, 0x200000, 0), ("td", 0x40001004, 0x20, 0),
  ("textarea", 0x40000000, 0x1000, 0), ("tfoot", 0x400120, 0x200000, 0),
  ("th", 0x40001004, 0x20, 0), ("thead", 0x400120, 0x200000, 0), ("title", 0x40000000, 0x400, 0),
  ("tr", 0x120, 0x600000, 0), ("tt", 0x40001000, 0x9000, 1), ("u", 0x40001000, 0x9000, 1),
  ("ul", 0x4000, 0x4, 0), ("var", 0x40001000, 0x9000, 0), ("wbr", 0x0, 0x9000, 0),
  ("xmp", 0x40001000, 0x4, 0)]

/-- The calls of `parent`, HTMLSchema.hpp lines 163-269. -/
def parentRows : List (String × String) := [
  ("<pcdata>", "body"), ("html", "<root>"), ("a", "body"), ("abbr", "body"), ("acronym", "body"),
  ("address", "body"), ("applet", "body"), ("area", "map"), ("b", "body"), ("base", "head"),
  ("basefont", "body"), ("bdo", "body"), ("bgsound", "head"), ("big", "body"), ("blink", "body"),
  ("blockquote", "body"), ("body", "html"), ("br", "body"), ("button", "form"), ("canvas", "body"),
  ("caption", "table"), ("center", "body"), ("cite", "body"), ("code", "body"), ("col", "table"),
  ("colgroup", "table"), ("comment", "body"), ("dd", "dl"), ("del", "body"), ("dfn", "body"),
  ("dir", "body"), ("div", "body"), ("dl", "body"), ("dt", "dl"), ("em", "body"),
  ("fieldset", "form"), ("font", "body"), ("form", "body"), ("frame", "frameset"),
  ("frameset", "html"), ("h1", "body"), ("h2", "body"), ("h3", "body"), ("h4", "body"),
  ("h5", "body"), ("h6", "body"), ("head", "html"), ("hr", "body"), ("i", "body"),
  ("iframe", "body"), ("img", "body"), ("input", "form"), ("ins", "body"), ("isindex", "head"),
  ("kbd", "body"), ("label", "form"), ("legend", "fieldset"), ("li", "ul"), ("link", "head"),
  ("listing", "body"), ("map", "body"), ("marquee", "body"), ("menu", "body"), ("meta", "head"),
  ("nobr", "body"), ("noframes", "html"), ("noscript", "body"), ("object", "body"), ("ol", "body"),
  ("optgroup", "select"), ("option", "select"), ("p", "body"), ("param", "object"),
  ("pre", "body"), ("q", "body"), ("rb", "body"), ("rbc", "body"), ("rp", "body"), ("rt", "body"),
  ("rtc", "body"), ("ruby", "body"), ("s", "body"), ("samp", "body"), ("script", "html"),
  ("select", "form"), ("small", "body"), ("span", "body"), ("strike", "body"), ("strong", "body"),
  ("style", "head"), ("sub", "body"), ("sup", "body"), ("table", "body"), ("tbody", "table"),
  ("td", "tr"), ("textarea", "form"), ("tfoot", "table"), ("th", "tr"), ("thead", "table"),
  ("title", "head"), ("tr", "tbody"), ("tt", "body"), ("u", "body"), ("ul", "body"),
  ("var", "body"), ("wbr", "body"), ("xmp", "body")]

/-- The calls of `attribute`, HTMLSchema.hpp lines 283-828: element, attribute, type, default. -/
def attributeRows : List (String × String × String × String) := [
  ("a", "hreflang", "NMTOKEN", ""), ("a", "shape", "CDATA", "rect"),
  ("a", "tabindex", "NMTOKEN", ""), ("applet", "align", "NMTOKEN", ""),
  ("area", "nohref", "BOOLEAN", ""), ("area", "shape", "CDATA", "rect"),
  ("area", "tabindex", "NMTOKEN", ""), ("br", "clear", "CDATA", "none"),
  ("button", "disabled", "BOOLEAN", ""), ("button", "tabindex", "NMTOKEN", ""),
  ("button", "type", "CDATA", "submit"), ("caption", "align", "NMTOKEN", ""),
  ("col", "align", "NMTOKEN", ""), ("col", "span", "CDATA", "1"), ("col", "valign", "NMTOKEN", ""),
  ("colgroup", "align", "NMTOKEN", ""), ("colgroup", "span", "CDATA", "1"),
  ("colgroup", "valign", "NMTOKEN", ""), ("dir", "compact", "BOOLEAN", ""),
  ("div", "align", "NMTOKEN", ""), ("dl", "compact", "BOOLEAN", ""),
  ("form", "enctype", "CDATA", "application/x-www-form-urlencoded"),
  ("form", "method", "CDATA", "get"), ("frame", "frameborder", "CDATA", "1"),
  ("frame", "noresize", "BOOLEAN", ""), ("frame", "scrolling", "CDATA", "auto"),
  ("h1", "align", "NMTOKEN", ""), ("h2", "align", "NMTOKEN", ""), ("h3", "align", "NMTOKEN", ""),
  ("h4", "align", "NMTOKEN", ""), ("h5", "align", "NMTOKEN", ""), ("h6", "align", "NMTOKEN", ""),
  ("hr", "align", "NMTOKEN", ""), ("hr", "noshade", "BOOLEAN", ""),
  ("iframe", "align", "NMTOKEN", ""), ("iframe", "frameborder", "CDATA", "1"),
  ("iframe", "scrolling", "CDATA", "auto"), ("img", "align", "NMTOKEN", ""),
  ("img", "ismap", "BOOLEAN", ""), ("input", "align", "NMTOKEN", ""),
  ("input", "checked", "BOOLEAN", ""), ("input", "disabled", "BOOLEAN", ""),
  ("input", "ismap", "BOOLEAN", ""), ("input", "maxlength", "NMTOKEN", ""),
  ("input", "readonly", "BOOLEAN", ""), ("input", "tabindex", "NMTOKEN", ""),
  ("input", "type", "CDATA", "text"), ("label", "for", "IDREF", ""),
  ("legend", "align", "NMTOKEN", ""), ("li", "value", "NMTOKEN", ""),
  ("link", "hreflang", "NMTOKEN", ""), ("marquee", "width", "NMTOKEN", ""),
  ("menu", "compact", "BOOLEAN", ""), ("meta", "http-equiv", "NMTOKEN", ""),
  ("meta", "name", "NMTOKEN", ""), ("object", "align", "NMTOKEN", ""),
  ("object", "declare", "BOOLEAN", ""), ("object", "tabindex", "NMTOKEN", ""),
  ("ol", "compact", "BOOLEAN", ""), ("ol", "start", "NMTOKEN", ""),
  ("optgroup", "disabled", "BOOLEAN", ""), ("option", "disabled", "BOOLEAN", ""),
  ("option", "selected", "BOOLEAN", ""), ("p", "align", "NMTOKEN", ""),
  ("param", "valuetype", "CDATA", "data"), ("pre", "width", "NMTOKEN", ""),
  ("rt", "rbspan", "CDATA", "1"), ("script", "defer", "BOOLEAN", ""),
  ("select", "disabled", "BOOLEAN", ""), ("select", "multiple", "BOOLEAN", ""),
  ("select", "size", "NMTOKEN", ""), ("select", "tabindex", "NMTOKEN", ""),
  ("table", "align", "NMTOKEN", ""), ("table", "frame", "NMTOKEN", ""),
  ("table", "rules", "NMTOKEN", ""), ("tbody", "align", "NMTOKEN", ""),
  ("tbody", "valign", "NMTOKEN", ""), ("td", "align", "NMTOKEN", ""),
  ("td", "colspan", "CDATA", "1"), ("td", "headers", "IDREFS", ""),
  ("td", "nowrap", "BOOLEAN", ""), ("td", "rowspan", "CDATA", "1"), ("td", "scope", "NMTOKEN", ""),
  ("td", "valign", "NMTOKEN", ""), ("textarea", "cols", "NMTOKEN", ""),
  ("textarea", "disabled", "BOOLEAN", ""), ("textarea", "readonly", "BOOLEAN", ""),
  ("textarea", "rows", "NMTOKEN", ""), ("textarea", "tabindex", "NMTOKEN", ""),
  ("tfoot", "align", "NMTOKEN", ""), ("tfoot", "valign", "NMTOKEN", ""),
  ("th", "align", "NMTOKEN", ""), ("th", "colspan", "CDATA", "1"), ("th", "headers", "IDREFS", ""),
  ("th", "nowrap", "BOOLEAN", ""), ("th", "rowspan", "CDATA", "1"), ("th", "scope", "NMTOKEN", ""),
  ("th", "valign", "NMTOKEN", ""), ("thead", "align", "NMTOKEN", ""),
  ("thead", "valign", "NMTOKEN", ""), ("tr", "align", "NMTOKEN", ""),
  ("tr", "valign", "NMTOKEN", ""), ("ul", "compact", "BOOLEAN", ""), ("ul", "type", "NMTOKEN", ""),
  ("xmp", "width", "NMTOKEN", ""), ("a", "class", "NMTOKEN", ""), ("abbr", "class", "NMTOKEN", ""),
  ("acronym", "class", "NMTOKEN", ""), ("address", "class", "NMTOKEN", ""),
  ("applet", "class", "NMTOKEN", ""), ("area", "class", "NMTOKEN", ""),
  ("b", "class", "NMTOKEN", ""), ("base", "class", "NMTOKEN", ""),
  ("basefont", "class", "NMTOKEN", ""), ("bdo", "class", "NMTOKEN", ""),
  ("bgsound", "class", "NMTOKEN", ""), ("big", "class", "NMTOKEN", ""),
  ("blink", "class", "NMTOKEN", ""), ("blockquote", "class", "NMTOKEN", ""),
  ("body", "class", "NMTOKEN", ""), ("br", "class", "NMTOKEN", ""),
  ("button", "class", "NMTOKEN", ""), ("canvas", "class", "NMTOKEN", ""),
  ("caption", "class", "NMTOKEN", ""), ("center", "class", "NMTOKEN", ""),
  ("cite", "class", "NMTOKEN", ""), ("code", "class", "NMTOKEN", ""),
  ("col", "class", "NMTOKEN", ""), ("colgroup", "class", "NMTOKEN", ""),
  ("comment", "class", "NMTOKEN", ""), ("dd", "class", "NMTOKEN", ""),
  ("del", "class", "NMTOKEN", ""), ("dfn", "class", "NMTOKEN", ""),
  ("dir", "class", "NMTOKEN", ""), ("div", "class", "NMTOKEN", ""), ("dl", "class", "NMTOKEN", ""),
  ("dt", "class", "NMTOKEN", ""), ("em", "class", "NMTOKEN", ""),
  ("fieldset", "class", "NMTOKEN", ""), ("font", "class", "NMTOKEN", ""),
  ("form", "class", "NMTOKEN", ""), ("frame", "class", "NMTOKEN", ""),
  ("frameset", "class", "NMTOKEN", ""), ("h1", "class", "NMTOKEN", ""),
  ("h2", "class", "NMTOKEN", ""), ("h3", "class", "NMTOKEN", ""), ("h4", "class", "NMTOKEN", ""),
  ("h5", "class", "NMTOKEN", ""), ("h6", "class", "NMTOKEN", ""), ("head", "class", "NMTOKEN", ""),
  ("hr", "class", "NMTOKEN", ""), ("html", "class", "NMTOKEN", ""), ("i", "class", "NMTOKEN", ""),
  ("iframe", "class", "NMTOKEN", ""), ("img", "class", "NMTOKEN", ""),
  ("input", "class", "NMTOKEN", ""), ("ins", "class", "NMTOKEN", ""),
  ("isindex", "class", "NMTOKEN", ""), ("kbd", "class", "NMTOKEN", ""),
  ("label", "class", "NMTOKEN", ""), ("legend", "class", "NMTOKEN", ""),
  ("li", "class", "NMTOKEN", ""), ("link", "class", "NMTOKEN", ""),
  ("listing", "class", "NMTOKEN", ""), ("map", "class", "NMTOKEN", ""),
  ("marquee", "class", "NMTOKEN", ""), ("menu", "class", "NMTOKEN", ""),
  ("meta", "class", "NMTOKEN", ""), ("nobr", "class", "NMTOKEN", ""),
  ("noframes", "class", "NMTOKEN", ""), ("noscript", "class", "NMTOKEN", ""),
  ("object", "class", "NMTOKEN", ""), ("ol", "class", "NMTOKEN", ""),
  ("optgroup", "class", "NMTOKEN", ""), ("option", "class", "NMTOKEN", ""),
  ("p", "class", "NMTOKEN", ""), ("param", "class", "NMTOKEN", ""),
  ("pre", "class", "NMTOKEN", ""), ("q", "class", "NMTOKEN", ""), ("rb", "class", "NMTOKEN", ""),
  ("rbc", "class", "NMTOKEN", ""), ("rp", "class", "NMTOKEN", ""), ("rt", "class", "NMTOKEN", ""),
  ("rtc", "class", "NMTOKEN", ""), ("ruby", "class", "NMTOKEN", ""), ("s", "class", "NMTOKEN", ""),
  ("samp", "class", "NMTOKEN", ""), ("script", "class", "NMTOKEN", ""),
  ("select", "class", "NMTOKEN", ""), ("small", "class", "NMTOKEN", ""),
  ("span", "class", "NMTOKEN", ""), ("strike", "class", "NMTOKEN", ""),
  ("strong", "class", "NMTOKEN", ""), ("style", "class", "NMTOKEN", ""),
  ("sub", "class", "NMTOKEN", ""), ("sup", "class", "NMTOKEN", ""),
  ("table", "class", "NMTOKEN", ""), ("tbody", "class", "NMTOKEN", ""),
  ("td", "class", "NMTOKEN", ""), ("textarea", "class", "NMTOKEN", ""),
  ("tfoot", "class", "NMTOKEN", ""), ("th", "class", "NMTOKEN", ""),
  ("thead", "class", "NMTOKEN", ""), ("title", "class", "NMTOKEN", ""),
  ("tr", "class", "NMTOKEN", ""), ("tt", "class", "NMTOKEN", ""), ("u", "class", "NMTOKEN", ""),
  ("ul", "class", "NMTOKEN", ""), ("var", "class", "NMTOKEN", ""), ("wbr", "class", "NMTOKEN", ""),
  ("xmp", "class", "NMTOKEN", ""), ("a", "dir", "NMTOKEN", ""), ("abbr", "dir", "NMTOKEN", ""),
  ("acronym", "dir", "NMTOKEN", ""), ("address", "dir", "NMTOKEN", ""),
  ("applet", "dir", "NMTOKEN", ""), ("area", "dir", "NMTOKEN", ""), ("b", "dir", "NMTOKEN", ""),
  ("base", "dir", "NMTOKEN", ""), ("basefont", "dir", "NMTOKEN", ""),
  ("bdo", "dir", "NMTOKEN", ""), ("bgsound", "dir", "NMTOKEN", ""), ("big", "dir", "NMTOKEN", ""),
  ("blink", "dir", "NMTOKEN", ""), ("blockquote", "dir", "NMTOKEN", ""),
  ("body", "dir", "NMTOKEN", ""), ("br", "dir", "NMTOKEN", ""), ("button", "dir", "NMTOKEN", ""),
  ("canvas", "dir", "NMTOKEN", ""), ("caption", "dir", "NMTOKEN", ""),
  ("center", "dir", "NMTOKEN", ""), ("cite", "dir", "NMTOKEN", ""), ("code", "dir", "NMTOKEN", ""),
  ("col", "dir", "NMTOKEN", ""), ("colgroup", "dir", "NMTOKEN", ""),
  ("comment", "dir", "NMTOKEN", ""), ("dd", "dir", "NMTOKEN", ""), ("del", "dir", "NMTOKEN", ""),
  ("dfn", "dir", "NMTOKEN", ""), ("dir", "dir", "NMTOKEN", ""), ("div", "dir", "NMTOKEN", ""),
  ("dl", "dir", "NMTOKEN", ""), ("dt", "dir", "NMTOKEN", ""), ("em", "dir", "NMTOKEN", ""),
  ("fieldset", "dir", "NMTOKEN", ""), ("font", "dir", "NMTOKEN", ""),
  ("form", "dir", "NMTOKEN", ""), ("frame", "dir", "NMTOKEN", ""),
  ("frameset", "dir", "NMTOKEN", ""), ("h1", "dir", "NMTOKEN", ""), ("h2", "dir", "NMTOKEN", ""),
  ("h3", "dir", "NMTOKEN", ""), ("h4", "dir", "NMTOKEN", ""), ("h5", "dir", "NMTOKEN", ""),
  ("h6", "dir", "NMTOKEN", ""), ("head", "dir", "NMTOKEN", ""), ("hr", "dir", "NMTOKEN", ""),
  ("html", "dir", "NMTOKEN", ""), ("i", "dir", "NMTOKEN", ""), ("iframe", "dir", "NMTOKEN", ""),
  ("img", "dir", "NMTOKEN", ""), ("input", "dir", "NMTOKEN", ""), ("ins", "dir", "NMTOKEN", ""),
  ("isindex", "dir", "NMTOKEN", ""), ("kbd", "dir", "NMTOKEN", ""),
  ("label", "dir", "NMTOKEN", ""), ("legend", "dir", "NMTOKEN", ""), ("li", "dir", "NMTOKEN", ""),
  ("link", "dir", "NMTOKEN", ""), ("listing", "dir", "NMTOKEN", ""), ("map", "dir", "NMTOKEN", ""),
  ("marquee", "dir", "NMTOKEN", ""), ("menu", "dir", "NMTOKEN", ""),
  ("meta", "dir", "NMTOKEN", ""), ("nobr", "dir", "NMTOKEN", ""),
  ("noframes", "dir", "NMTOKEN", ""), ("noscript", "dir", "NMTOKEN", ""),
  ("object", "dir", "NMTOKEN", ""), ("ol", "dir", "NMTOKEN", ""),
  ("optgroup", "dir", "NMTOKEN", ""), ("option", "dir", "NMTOKEN", ""),
  ("p", "dir", "NMTOKEN", ""), ("param", "dir", "NMTOKEN", ""), ("pre", "dir", "NMTOKEN", ""),
  ("q", "dir", "NMTOKEN", ""), ("rb", "dir", "NMTOKEN", ""), ("rbc", "dir", "NMTOKEN", ""),
  ("rp", "dir", "NMTOKEN", ""), ("rt", "dir", "NMTOKEN", ""), ("rtc", "dir", "NMTOKEN", ""),
  ("ruby", "dir", "NMTOKEN", ""), ("s", "dir", "NMTOKEN", ""), ("samp", "dir", "NMTOKEN", ""),
  ("script", "dir", "NMTOKEN", ""), ("select", "dir", "NMTOKEN", ""),
  ("small", "dir", "NMTOKEN", ""), ("span", "dir", "NMTOKEN", ""),
  ("strike", "dir", "NMTOKEN", ""), ("strong", "dir", "NMTOKEN", ""),
  ("style", "dir", "NMTOKEN", ""), ("sub", "dir", "NMTOKEN", ""), ("sup", "dir", "NMTOKEN", ""),
  ("table", "dir", "NMTOKEN", ""), ("tbody", "dir", "NMTOKEN", ""), ("td", "dir", "NMTOKEN", ""),
  ("textarea", "dir", "NMTOKEN", ""), ("tfoot", "dir", "NMTOKEN", ""),
  ("th", "dir", "NMTOKEN", ""), ("thead", "dir", "NMTOKEN", ""), ("title", "dir", "NMTOKEN", ""),
  ("tr", "dir", "NMTOKEN", ""), ("tt", "dir", "NMTOKEN", ""), ("u", "dir", "NMTOKEN", ""),
  ("ul", "dir", "NMTOKEN", ""), ("var", "dir", "NMTOKEN", ""), ("wbr", "dir", "NMTOKEN", ""),
  ("xmp", "dir", "NMTOKEN", ""), ("a", "id", "ID", ""), ("abbr", "id", "ID", ""),
  ("acronym", "id", "ID", ""), ("address", "id", "ID", ""), ("applet", "id", "ID", ""),
  ("area", "id", "ID", ""), ("b", "id", "ID", ""), ("base", "id", "ID", ""),
  ("basefont", "id", "ID", ""), ("bdo", "id", "ID", ""), ("bgsound", "id", "ID", ""),
  ("big", "id", "ID", ""), ("blink", "id", "ID", ""), ("blockquote", "id", "ID", ""),
  ("body", "id", "ID", ""), ("br", "id", "ID", ""), ("button", "id", "ID", ""),
  ("canvas", "id", "ID", ""), ("caption", "id", "ID", ""), ("center", "id", "ID", ""),
  ("cite", "id", "ID", ""), ("code", "id", "ID", ""), ("col", "id", "ID", ""),
  ("colgroup", "id", "ID", ""), ("comment", "id", "ID", ""), ("dd", "id", "ID", ""),
  ("del", "id", "ID", ""), ("dfn", "id", "ID", ""), ("dir", "id", "ID", ""),
  ("div", "id", "ID", ""), ("dl", "id", "ID", ""), ("dt", "id", "ID", ""), ("em", "id", "ID", ""),
  ("fieldset", "id", "ID", ""), ("font", "id", "ID", ""), ("form", "id", "ID", ""),
  ("frame", "id", "ID", ""), ("frameset", "id", "ID", ""), ("h1", "id", "ID", ""),
  ("h2", "id", "ID", ""), ("h3", "id", "ID", ""), ("h4", "id", "ID", ""), ("h5", "id", "ID", ""),
  ("h6", "id", "ID", ""), ("head", "id", "ID", ""), ("hr", "id", "ID", ""),
  ("html", "id", "ID", ""), ("i", "id", "ID", ""), ("iframe", "id", "ID", ""),
  ("img", "id", "ID", ""), ("input", "id", "ID", ""), ("ins", "id", "ID", ""),
  ("isindex", "id", "ID", ""), ("kbd", "id", "ID", ""), ("label", "id", "ID", ""),
  ("legend", "id", "ID", ""), ("li", "id", "ID", ""), ("link", "id", "ID", ""),
  ("listing", "id", "ID", ""), ("map", "id", "ID", ""), ("marquee", "id", "ID", ""),
  ("menu", "id", "ID", ""), ("meta", "id", "ID", ""), ("nobr", "id", "ID", ""),
  ("noframes", "id", "ID", ""), ("noscript", "id", "ID", ""), ("object", "id", "ID", ""),
  ("ol", "id", "ID", ""), ("optgroup", "id", "ID", ""), ("option", "id", "ID", ""),
  ("p", "id", "ID", ""), ("param", "id", "ID", ""), ("pre", "id", "ID", ""), ("q", "id", "ID", ""),
  ("rb", "id", "ID", ""), ("rbc", "id", "ID", ""), ("rp", "id", "ID", ""), ("rt", "id", "ID", ""),
  ("rtc", "id", "ID", ""), ("ruby", "id", "ID", ""), ("s", "id", "ID", ""),
  ("samp", "id", "ID", ""), ("script", "id", "ID", ""), ("select", "id", "ID", ""),
  ("small", "id", "ID", ""), ("span", "id", "ID", ""), ("strike", "id", "ID", ""),
  ("strong", "id", "ID", ""), ("style", "id", "ID", ""), ("sub", "id", "ID", ""),
  ("sup", "id", "ID", ""), ("table", "id", "ID", ""), ("tbody", "id", "ID", ""),
  ("td", "id", "ID", ""), ("textarea", "id", "ID", ""), ("tfoot", "id", "ID", ""),
  ("th", "id", "ID", ""), ("thead", "id", "ID", ""), ("title", "id", "ID", ""),
  ("tr", "id", "ID", ""), ("tt", "id", "ID", ""), ("u", "id", "ID", ""), ("ul", "id", "ID", ""),
  ("var", "id", "ID", ""), ("wbr", "id", "ID", ""), ("xmp", "id", "ID", ""),
  ("a", "lang", "NMTOKEN", ""), ("abbr", "lang", "NMTOKEN", ""),
  ("acronym", "lang", "NMTOKEN", ""), ("address", "lang", "NMTOKEN", ""),
  ("applet", "lang", "NMTOKEN", ""), ("area", "lang", "NMTOKEN", ""), ("b", "lang", "NMTOKEN", ""),
  ("base", "lang", "NMTOKEN", ""), ("basefont", "lang", "NMTOKEN", ""),
  ("bdo", "lang", "NMTOKEN", ""), ("bgsound", "lang", "NMTOKEN", ""),
  ("big", "lang", "NMTOKEN", ""), ("blink", "lang", "NMTOKEN", ""),
  ("blockquote", "lang", "NMTOKEN", ""), ("body", "lang", "NMTOKEN", ""),
  ("br", "lang", "NMTOKEN", ""), ("button", "lang", "NMTOKEN", ""),
  ("canvas", "lang", "NMTOKEN", ""), ("caption", "lang", "NMTOKEN", ""),
  ("center", "lang", "NMTOKEN", ""), ("cite", "lang", "NMTOKEN", ""),
  ("code", "lang", "NMTOKEN", ""), ("col", "lang", "NMTOKEN", ""),
  ("colgroup", "lang", "NMTOKEN", ""), ("comment", "lang", "NMTOKEN", ""),
  ("dd", "lang", "NMTOKEN", ""), ("del", "lang", "NMTOKEN", ""), ("dfn", "lang", "NMTOKEN", ""),
  ("dir", "lang", "NMTOKEN", ""), ("div", "lang", "NMTOKEN", ""), ("dl", "lang", "NMTOKEN", ""),
  ("dt", "lang", "NMTOKEN", ""), ("em", "lang", "NMTOKEN", ""),
  ("fieldset", "lang", "NMTOKEN", ""), ("font", "lang", "NMTOKEN", ""),
  ("form", "lang", "NMTOKEN", ""), ("frame", "lang", "NMTOKEN", ""),
  ("frameset", "lang", "NMTOKEN", ""), ("h1", "lang", "NMTOKEN", ""),
  ("h2", "lang", "NMTOKEN", ""), ("h3", "lang", "NMTOKEN", ""), ("h4", "lang", "NMTOKEN", ""),
  ("h5", "lang", "NMTOKEN", ""), ("h6", "lang", "NMTOKEN", ""), ("head", "lang", "NMTOKEN", ""),
  ("hr", "lang", "NMTOKEN", ""), ("html", "lang", "NMTOKEN", ""), ("i", "lang", "NMTOKEN", ""),
  ("iframe", "lang", "NMTOKEN", ""), ("img", "lang", "NMTOKEN", ""),
  ("input", "lang", "NMTOKEN", ""), ("ins", "lang", "NMTOKEN", ""),
  ("isindex", "lang", "NMTOKEN", ""), ("kbd", "lang", "NMTOKEN", ""),
  ("label", "lang", "NMTOKEN", ""), ("legend", "lang", "NMTOKEN", ""),
  ("li", "lang", "NMTOKEN", ""), ("link", "lang", "NMTOKEN", ""),
  ("listing", "lang", "NMTOKEN", ""), ("map", "lang", "NMTOKEN", ""),
  ("marquee", "lang", "NMTOKEN", ""), ("menu", "lang", "NMTOKEN", ""),
  ("meta", "lang", "NMTOKEN", ""), ("nobr", "lang", "NMTOKEN", ""),
  ("noframes", "lang", "NMTOKEN", ""), ("noscript", "lang", "NMTOKEN", ""),
  ("object", "lang", "NMTOKEN", ""), ("ol", "lang", "NMTOKEN", ""),
  ("optgroup", "lang", "NMTOKEN", ""), ("option", "lang", "NMTOKEN", ""),
  ("p", "lang", "NMTOKEN", ""), ("param", "lang", "NMTOKEN", ""), ("pre", "lang", "NMTOKEN", ""),
  ("q", "lang", "NMTOKEN", ""), ("rb", "lang", "NMTOKEN", ""), ("rbc", "lang", "NMTOKEN", ""),
  ("rp", "lang", "NMTOKEN", ""), ("rt", "lang", "NMTOKEN", ""), ("rtc", "lang", "NMTOKEN", ""),
  ("ruby", "lang", "NMTOKEN", ""), ("s", "lang", "NMTOKEN", ""), ("samp", "lang", "NMTOKEN", ""),
  ("script", "lang", "NMTOKEN", ""), ("select", "lang", "NMTOKEN", ""),
  ("small", "lang", "NMTOKEN", ""), ("span", "lang", "NMTOKEN", ""),
  ("strike", "lang", "NMTOKEN", ""), ("strong", "lang", "NMTOKEN", ""),
  ("style", "lang", "NMTOKEN", ""), ("sub", "lang", "NMTOKEN", ""), ("sup", "lang", "NMTOKEN", ""),
  ("table", "lang", "NMTOKEN", ""), ("tbody", "lang", "NMTOKEN", ""),
  ("td", "lang", "NMTOKEN", ""), ("textarea", "lang", "NMTOKEN", ""),
  ("tfoot", "lang", "NMTOKEN", ""), ("th", "lang", "NMTOKEN", ""),
  ("thead", "lang", "NMTOKEN", ""), ("title", "lang", "NMTOKEN", ""),
  ("tr", "lang", "NMTOKEN", ""), ("tt", "lang", "NMTOKEN", ""), ("u", "lang", "NMTOKEN", ""),
  ("ul", "lang", "NMTOKEN", ""), ("var", "lang", "NMTOKEN", ""), ("wbr", "lang", "NMTOKEN", ""),
  ("xmp", "lang", "NMTOKEN", "")]

/-- The calls of `entity`, HTMLSchema.hpp lines 835-2917. -/
def entityRows : List (String × Nat) := [
  ("aacute", 0xe1), ("Aacute", 0xc1), ("acirc", 0xe2), ("Acirc", 0xc2), ("acute", 0xb4),
  ("aelig", 0xe6), ("AElig", 0xc6), ("agrave", 0xe0), ("Agrave", 0xc0), ("amp", 0x26),
  ("apos", 0x27), ("aring", 0xe5), ("Aring", 0xc5), ("ast", 0x2a), ("atilde", 0xe3),
  ("Atilde", 0xc3), ("auml", 0xe4), ("Auml", 0xc4), ("brvbar", 0xa6), ("bsol", 0x5c),
  ("ccedil", 0xe7), ("Ccedil", 0xc7), ("cedil", 0xb8), ("Cedilla", 0xb8), ("cent", 0xa2),
  ("centerdot", 0xb7), ("circledR", 0xae), ("colon", 0x3a), ("comma", 0x2c), ("commat", 0x40),
  ("copy", 0xa9), ("curren", 0xa4), ("deg", 0xb0), ("DiacriticalAcute", 0xb4),
  ("DiacriticalGrave", 0x60), ("die", 0xa8), ("div", 0xf7), ("divide", 0xf7), ("dollar", 0x24),
  ("Dot", 0xa8), ("DoubleDot", 0xa8), ("eacute", 0xe9), ("Eacute", 0xc9), ("ecirc", 0xea),
  ("Ecirc", 0xca), ("egrave", 0xe8), ("Egrave", 0xc8), ("equals", 0x3d), ("eth", 0xf0),
  ("ETH", 0xd0), ("euml", 0xeb), ("Euml", 0xcb), ("excl", 0x21), ("frac12", 0xbd),
  ("frac14", 0xbc), ("frac34", 0xbe), ("grave", 0x60), ("gt", 0x3e), ("half", 0xbd), ("Hat", 0x5e),
  ("iacute", 0xed), ("Iacute", 0xcd), ("icirc", 0xee), ("Icirc", 0xce), ("iexcl", 0xa1),
  ("igrave", 0xec), ("Igrave", 0xcc), ("iquest", 0xbf), ("iuml", 0xef), ("Iuml", 0xcf),
  ("laquo", 0xab), ("lbrace", 0x7b), ("lbrack", 0x5b), ("lcub", 0x7b), ("lowbar", 0x5f),
  ("lpar", 0x28), ("lsqb", 0x5b), ("lt", 0x3c), ("macr", 0xaf), ("micro", 0xb5), ("middot", 0xb7),
  ("nbsp", 0xa0), ("NewLine", 0xa), ("NonBreakingSpace", 0xa0), ("not", 0xac), ("ntilde", 0xf1),
  ("Ntilde", 0xd1), ("num", 0x23), ("oacute", 0xf3), ("Oacute", 0xd3), ("ocirc", 0xf4),
  ("Ocirc", 0xd4), ("ograve", 0xf2), ("Ograve", 0xd2), ("ordf", 0xaa), ("ordm", 0xba),
  ("oslash", 0xf8), ("Oslash", 0xd8), ("otilde", 0xf5), ("Otilde", 0xd5), ("ouml", 0xf6),
  ("Ouml", 0xd6), ("OverBar", 0xaf), ("para", 0xb6), ("percnt", 0x25), ("period", 0x2e),
  ("plus", 0x2b), ("PlusMinus", 0xb1), ("plusmn", 0xb1), ("pm", 0xb1), ("pound", 0xa3),
  ("quest", 0x3f), ("quot", 0x22), ("raquo", 0xbb), ("rbrace", 0x7d), ("rbrack", 0x5d),
  ("rcub", 0x7d), ("reg", 0xae), ("rpar", 0x29), ("rsqb", 0x5d), ("sect", 0xa7), ("semi", 0x3b),
  ("shy", 0xad), ("sol", 0x2f), ("strns", 0xaf), ("sup1", 0xb9), ("sup2", 0xb2), ("sup3", 0xb3),
  ("szlig", 0xdf), ("Tab", 0x9), ("thorn", 0xfe), ("THORN", 0xde), ("times", 0xd7),
  ("uacute", 0xfa), ("Uacute", 0xda), ("ucirc", 0xfb), ("Ucirc", 0xdb), ("ugrave", 0xf9),
  ("Ugrave", 0xd9), ("uml", 0xa8), ("uuml", 0xfc), ("Uuml", 0xdc), ("verbar", 0x7c),
  ("vert", 0x7c), ("VerticalLine", 0x7c), ("yacute", 0xfd), ("Yacute", 0xdd), ("yen", 0xa5),
  ("yuml", 0xff)]

/-- The index of the type with a given key in `elementTypes_`. -/
def typeIndex (types : List (Str × EType)) (name : Str) : Option Nat :=
  types.findIdx? fun p => p.1 == lower name

/-- `SchemaImpl::elementType`, SchemaImpl.hpp lines 46-53, for a name that has no type yet. -/
def addRow (S : Schema) (r : String × Nat × Nat × Nat) : Schema :=
  let S' := S.addType r.1.toList r.2.1 r.2.2.1 r.2.2.2 none
  if r.2.2.1 = mRoot then { S' with root := S.types.length } else S'

/-- `SchemaImpl::parent`, SchemaImpl.hpp lines 87-100.  It throws if a name is unknown; that none is,
is proved (`html_parents_known`). -/
def setParent (types : List (Str × EType)) (r : String × String) : List (Str × EType) :=
  match typeIndex types r.1.toList, typeIndex types r.2.toList with
  | some i, some j => types.modify i fun p => (p.1, { p.2 with parent := some j })
  | _, _ => types

/-- `SchemaImpl::attribute`, SchemaImpl.hpp lines 70-80.  It throws if the element is unknown; that
none is, is proved (`html_attributes_known`). -/
def setDefault (types : List (Str × EType)) (r : String × String × String × String) :
    List (Str × EType) :=
  match typeIndex types r.1.toList with
  | some i => types.modify i fun p =>
      (p.1, { p.2 with atts := setAtt p.2.atts r.2.1.toList r.2.2.1.toList r.2.2.2.toList })
  | none => types

/-- `getEntity`, SchemaImpl.hpp lines 130-136, after the calls of `entity`, lines 107-110: the values
are kept as `char` and come back as `int`, so those from 0x80 on come back negative. -/
def htmlEntity (name : Str) : Int :=
  match entityRows.find? (fun p => p.1.toList == name) with
  | none => 0
  | some p => if p.2 % 256 < 128 then ((p.2 % 256 : Nat) : Int) else ((p.2 % 256 : Nat) : Int) - 256

/-- A schema before the first call, HTMLSchema.hpp lines 31-32. -/
def emptySchema : Schema :=
  { uri := "http://www.w3.org/1999/xhtml".toList, prefix' := "html".toList, types := [], root := 0,
    entity := htmlEntity }

/-- `HTMLSchema::HTMLSchema`, HTMLSchema.hpp lines 28-46. -/
def htmlSchema : Schema :=
  let S := elementRows.foldl addRow emptySchema
  { S with types := attributeRows.foldl setDefault (parentRows.foldl setParent S.types) }

end Verif.Taggle
