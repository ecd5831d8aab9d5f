import Verif.Model.SelectorMatch

/-! The built-in style sheet, style/user_agent.css, as the CSS parser delivers it. -/

namespace Sinab

/-- a type selector -/
def typeSel (name : String) : ComplexSel := .compound [⟨false, .type name⟩]

/-- a declaration with a single identifier as value -/
def keywordDecl (name value : String) : RawItem := .decl name.toList [.ident value.toList]

/-- a declaration with `!important` -/
def importantDecl (name value : String) : RawItem :=
  .decl name.toList [.ident value.toList, .delim '!', .ident "important".toList]

/-- `[hidden]` -/
def hiddenAttr : SimpleSel := .attr (some "") "hidden" fun _ _ => true

/-- `[type=hidden i]` -/
def typeHiddenAttr : SimpleSel := .attr (some "") "type" fun _ v => Doc.eqIgnoreAsciiCase v "hidden".toList

/-- the elements of user_agent.css 5-6 -/
def uaHiddenNames : List String :=
  ["area", "base", "basefont", "datalist", "head", "link", "meta", "noembed", "noframes", "param",
   "rp", "script", "source", "style", "template", "track", "title"]

/-- the elements of user_agent.css 19-20 -/
def uaBlockNames : List String :=
  ["address", "blockquote", "center", "dialog", "div", "figure", "figcaption", "footer", "form",
   "header", "hr", "legend", "listing", "main", "p", "plaintext", "pre", "xmp"]

/-- style/user_agent.css 1-31.  `@namespace` (3) is an at-rule, for which the rule parser
(style/rules.rs 47-52) has only the default implementation, which rejects it. -/
def userAgentCss : List (RawRule cssEngine) :=
  [.error,
   .rule (.compound [⟨false, hiddenAttr⟩] :: uaHiddenNames.map typeSel) [keywordDecl "display" "none"],
   .rule [.compound [⟨false, .type "embed"⟩, ⟨false, hiddenAttr⟩]]
     [keywordDecl "display" "inline", .decl "height".toList [.number 0], .decl "width".toList [.number 0]],
   .rule [.compound [⟨false, .type "input"⟩, ⟨false, typeHiddenAttr⟩]] [importantDecl "display" "none"],
   .rule [typeSel "html", typeSel "body"] [keywordDecl "display" "block"],
   .rule [typeSel "body"] [.decl "margin".toList [.dimension 0 "px".toList]],
   .rule [typeSel "em"] [keywordDecl "font-style" "italic"],
   .rule [typeSel "strong"] [keywordDecl "font-weight" "bold"],
   .rule (uaBlockNames.map typeSel) [keywordDecl "display" "block"],
   .rule [typeSel "br"] [importantDecl "white-space" "pre"],
   .rule [typeSel "sub"]
     [keywordDecl "vertical-align" "sub", .decl "font-size".toList [.dimension (4 / 5) "em".toList]],
   .rule [typeSel "sup"]
     [keywordDecl "vertical-align" "super", .decl "font-size".toList [.dimension (4 / 5) "em".toList]],
   .rule [typeSel "pre"] [keywordDecl "white-space" "pre"],
   .rule [typeSel "code"] [keywordDecl "font-family" "monospace"]]

/-- `USER_AGENT_STYLESHEET` (style/cascade.rs 16-22) -/
def userAgentSheet (C : CssColors) : Except Panic (StyleSet cssEngine) := do
  let s ← StyleSet.addStylesheet C ⟨[]⟩ userAgentCss
  return s.finish

end Sinab
