import Verif.Model.ConvHtml
/-! What the HTML converter has written when the conversion ends, also if it ends with an exception: `elm` writes no end tags then
(converters/writers/html.py:52-56), only the file is closed (line 17-19). -/

namespace Pdf

/-- How a conversion to HTML ends: without an exception, with one that the interpreter raises, or with one that the converter itself raises
(converters/html.py:23-160). Which one the converter raises is not modelled. -/
inductive HtmlEnd where
  | done
  | raised (e : PyErr)
  | refused
deriving DecidableEq

/-- The exception of the interpreter, if there is one (interpreter/__init__.py:43-64). -/
def HtmlEnd.of : Option PyErr → HtmlEnd
  | none => .done
  | some e => .raised e

/-- The start tag of an element and the end of its line (converters/writers/html.py:52-53). -/
def hOpen (level : Nat) (tag : PyStr) (attrs : List (PyStr × PyStr)) : PyStr :=
  xIndent level ++ ([0x3c] ++ tag ++ [0x20] ++ xAttrs attrs ++ [0x3e]) ++ [0x0a]

/-- The end tag of an element and the end of its line (converters/writers/html.py:55-56). -/
def hClose (level : Nat) (tag : PyStr) : PyStr := xIndent level ++ ([0x3c, 0x2f] ++ tag ++ [0x3e]) ++ [0x0a]

/-- `with html.elm(...)` (converters/writers/html.py:33-59): the end tag is written only if there is no exception inside. -/
def hWith (level : Nat) (tag : PyStr) (attrs : List (PyStr × PyStr)) (body : PyStr × Bool) : PyStr × Bool :=
  (hOpen level tag attrs ++ body.1 ++ (if body.2 then hClose level tag else []), body.2)

/-- The char-blocks of a text block (converters/html.py:87-88), with whether they are all written. -/
def hBlocksText (env : HtmlEnv) (level : Nat) : List CharBlock → PyStr × Bool
  | [] => ([], true)
  | b :: bs =>
    match hCharBlock env b with
    | none => ([], false)
    | some n => (xWriteNode level n ++ (hBlocksText env level bs).1, (hBlocksText env level bs).2)

mutual
/-- `render` (converters/html.py:50-112): what is written, and whether there is no exception. Curves and char-blocks are computed before
anything of them is written. -/
def hItemText (env : HtmlEnv) (pageHeight : ℚ) (level : Nat) : Item → PyStr × Bool
  | .curve c =>
    match hCurve env pageHeight c with
    | none => ([], false)
    | some n => (xWriteNode level n, true)
  | .xobj _ bbox _ _ children =>
    hWith level (pstr "div") (styled [(pstr "class", pstr "xobject")] (xobjectCss env bbox)) (hItemsText env pageHeight (level + 1) children)
  | .image d data bbox => (xWriteNode level (.single (pstr "img") [(pstr "src", env.imageName d data), (pstr "background", pstr "red"),
      (pstr "width", px env bbox.width), (pstr "height", px env bbox.height)]), true)
  | .text b => hWith level (pstr "span") [(pstr "class", pstr "text-block")] (hBlocksText env (level + 1) b.blocks)
  | .none => ([], true)
/-- The children of a page or of an xobject (converters/html.py:63-64, 118-119). -/
def hItemsText (env : HtmlEnv) (pageHeight : ℚ) (level : Nat) : List Item → PyStr × Bool
  | [] => ([], true)
  | i :: rest =>
    match hItemText env pageHeight level i with
    | (t, false) => (t, false)
    | (t, true) => (t ++ (hItemsText env pageHeight level rest).1, (hItemsText env pageHeight level rest).2)
end

/-- `render_page` (converters/html.py:114-119); `complete` is false if the interpreter raises an exception after the items. -/
def hPageText (env : HtmlEnv) (level : Nat) (complete : Bool) (p : LtPage) : PyStr × Bool :=
  hWith level (pstr "div") (styled [(pstr "class", pstr "page"), (pstr "id", pstr "page-" ++ numText p.num)]
      [(pstr "width", px env p.width), (pstr "height", px env p.height)])
    ((hItemsText env p.height (level + 1) p.items).1, (hItemsText env p.height (level + 1) p.items).2 && complete)

/-- The loop over the pages (converters/html.py:46-47): the complete pages, then the page that was begun when the interpreter raised an exception. -/
def hPagesText (env : HtmlEnv) (level : Nat) : List LtPage → Option LtPage → Option PyErr → PyStr × HtmlEnd
  | [], none, e => ([], .of e)
  | [], some p, e => ((hPageText env level false p).1, if (hItemsText env p.height (level + 1) p.items).2 then .of e else .refused)
  | p :: ps, begun, e =>
    match hPageText env level true p with
    | (t, false) => (t, .refused)
    | (t, true) => (t ++ (hPagesText env level ps begun e).1, (hPagesText env level ps begun e).2)

/-- What `convert_to_html` writes (converters/html.py:33-47), and how it ends. The end tag of the document has no line end (line 34). -/
def htmlRun (env : HtmlEnv) (codec : PyStr) (pages : List LtPage) (begun : Option LtPage) (e : Option PyErr) : PyStr × HtmlEnd :=
  let r := hPagesText env 2 pages begun e
  (hOpen 0 (pstr "html") [] ++ xWriteNode 1 (hHead codec) ++ hOpen 1 (pstr "body") [] ++ r.1 ++
    (if r.2 = .done then hClose 1 (pstr "body") ++ pstr "</html>" else []), r.2)

end Pdf
