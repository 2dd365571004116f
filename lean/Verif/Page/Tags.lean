/-!
# The macros for tags and attributes

`/repo/src/network/cgi/tags.h:49-306`, the name of the macro and the string it stands for.
-/
namespace Verif.Page

/-- The macros for elements, `/repo/src/network/cgi/tags.h:49-180`: `#define a__ tag__("a")` and so on. -/
def tagMacros : List (String × String) := [
  ("a__", "a"), ("abbr__", "abbr"), ("acronym__", "acronym"), ("address__", "address"), ("applet__", "applet"), ("area__", "area"), ("b__", "b"),
   ("base__", "base"), ("basefont__", "basefont"), ("bdo__", "bdo"), ("bgsound__", "bgsound"), ("big__", "big"), ("blink__", "blink"),
   ("blockquote__", "blockquote"), ("body__", "body"), ("br__", "br"), ("button__", "button"), ("caption__", "caption"), ("center__", "center"),
   ("cite__", "cite"), ("code__", "code"), ("col__", "col"), ("colgroup__", "colgroup"), ("comment__", "comment"), ("dd__", "dd"),
   ("del__", "del"), ("dfn__", "dfn"), ("dir__", "dir"), ("div__", "div"), ("dl__", "dl"), ("dt__", "dt"), ("em__", "em"), ("embed__", "embed"),
   ("fieldset__", "fieldset"), ("font__", "font"), ("form__", "form"), ("frame__", "frame"), ("frameset__", "frameset"), ("h1__", "h1"),
   ("h2__", "h2"), ("h3__", "h3"), ("h4__", "h4"), ("h5__", "h5"), ("h6__", "h6"), ("head__", "head"), ("hr__", "hr"), ("html__", "html"),
   ("i__", "i"), ("iframe__", "iframe"), ("ilayer__", "ilayer"), ("img__", "img"), ("input__", "input"), ("ins__", "ins"),
   ("isindex__", "isindex"), ("kbd__", "kbd"), ("label__", "label"), ("layer__", "layer"), ("legend__", "legend"), ("li__", "li"),
   ("link__", "link"), ("listing__", "listing"), ("map__", "map"), ("marquee__", "marquee"), ("menu__", "menu"), ("meta__", "meta"),
   ("multicol__", "multicol"), ("nobr__", "nobr"), ("noembed__", "noembed"), ("noframes__", "noframes"), ("nolayer__", "nolayer"),
   ("noscript__", "noscript"), ("object__", "object"), ("ol__", "ol"), ("optgroup__", "optgroup"), ("option__", "option"), ("p__", "p"),
   ("param__", "param"), ("plaintext__", "plaintext"), ("pre__", "pre"), ("q__", "q"), ("rb__", "rb"), ("rp__", "rp"), ("rt__", "rt"),
   ("ruby__", "ruby"), ("s__", "s"), ("samp__", "samp"), ("script__", "script"), ("select__", "select"), ("small__", "small"),
   ("spacer__", "spacer"), ("span__", "span"), ("strike__", "strike"), ("strong__", "strong"), ("style__", "style"), ("sub__", "sub"),
   ("sup__", "sup"), ("table__", "table"), ("tbody__", "tbody"), ("td__", "td"), ("textarea__", "textarea"), ("tfoot__", "tfoot"), ("th__", "th"),
   ("thead__", "thead"), ("title__", "title"), ("tr__", "tr"), ("tt__", "tt"), ("u__", "u"), ("ul__", "ul"), ("var__", "var"), ("wbr__", "wbr"),
   ("xmp__", "xmp")]

/-- The macros for attributes, `/repo/src/network/cgi/tags.h:182-306`: `#define abbr_a__ attr__("abbr")` and so on. -/
def attrMacros : List (String × String) := [
  ("abbr_a__", "abbr"), ("accesskey__", "accesskey"), ("accept__", "accept"), ("accept_charset__", "accept-charset"), ("action__", "action"),
   ("align__", "align"), ("alink__", "alink"), ("alt__", "alt"), ("archive__", "archive"), ("axis__", "axis"), ("background__", "background"),
   ("bgcolor__", "bgcolor"), ("border__", "border"), ("cellpadding__", "cellpadding"), ("cellspacing__", "cellspacing"), ("checked__", "checked"),
   ("char__", "char"), ("charoff__", "charoff"), ("charset__", "charset"), ("cite_a__", "cite"), ("class__", "class"), ("classid__", "classid"),
   ("clear__", "clear"), ("code_a__", "code"), ("codetype__", "codetype"), ("codebase__", "codebase"), ("color__", "color"), ("cols__", "cols"),
   ("colspan__", "colspan"), ("compact__", "compact"), ("content__", "content"), ("coords__", "coords"), ("data__", "data"),
   ("declare__", "declare"), ("datatime__", "datatime"), ("defer__", "defer"), ("dir_a__", "dir"), ("disabled__", "disabled"),
   ("enctype__", "enctype"), ("face__", "face"), ("for__", "for"), ("frame_a__", "frame"), ("frameborder__", "frameborder"),
   ("headers__", "headers"), ("height__", "height"), ("href__", "href"), ("hreflang__", "hreflang"), ("hspace__", "hspace"),
   ("http_equiv__", "http-equiv"), ("id__", "id"), ("ismap__", "ismap"), ("label_a__", "label"), ("lang__", "lang"), ("language__", "language"),
   ("link_a__", "link"), ("longdesc__", "longdesc"), ("marginheight__", "marginheight"), ("marginwidth__", "marginwidth"),
   ("maxlength__", "maxlength"), ("media__", "media"), ("method__", "method"), ("multiple__", "multiple"), ("name__", "name"),
   ("nohref__", "nohref"), ("noresize__", "noresize"), ("noshade__", "noshade"), ("nowrap__", "nowrap"), ("object_a__", "object"),
   ("readonly__", "readonly"), ("rel__", "rel"), ("rev__", "rev"), ("rows__", "rows"), ("rowspan__", "rowspan"), ("rules__", "rules"),
   ("scrolling__", "scrolling"), ("scope__", "scope"), ("selected__", "selected"), ("shape__", "shape"), ("size__", "size"), ("span_a__", "span"),
   ("src__", "src"), ("start__", "start"), ("standby__", "standby"), ("style_a__", "style"), ("summary__", "summary"), ("tabindex__", "tabindex"),
   ("target__", "target"), ("text_a__", "text"), ("title_a__", "title"), ("type__", "type"), ("usemap__", "usemap"), ("valign__", "valign"),
   ("value__", "value"), ("valuetype__", "valuetype"), ("vlink__", "vlink"), ("vspace__", "vspace"), ("width__", "width"), ("onLoad__", "onLoad"),
   ("onUnload__", "onUnload"), ("onClick__", "onClick"), ("onDblClick__", "onDblClick"), ("onMouseDown__", "onMouseDown"),
   ("onMouseUp__", "onMouseUp"), ("onMouseOver__", "onMouseOver"), ("onMouseOut__", "onMouseOut"), ("onMouseMove__", "onMouseMove"),
   ("onKeyPress__", "onKeyPress")]

end Verif.Page
