import Verif.Model.Paths
/-! Model of the XML and HTML writers (converters/writers/xml.py, converters/writers/html.py).

A tree of calls is a body: `elm` with its body, `singleton`, and `write`. The output is a list of code points: the encoding with `codec` is
not modelled. -/

namespace Pdf

mutual
/-- One call (converters/writers/xml.py:30-59). `bare` is `no_additional_char`; a text is written with its indentation and a line end, or
`raw`, with neither. Attributes are given with the text of their values. -/
inductive XNode where
  | elm (tag : PyStr) (attrs : List (PyStr × PyStr)) (bare nolineend : Bool) (body : XBody)
  | single (tag : PyStr) (attrs : List (PyStr × PyStr))
  | text (t : PyStr) (raw : Bool)
/-- The calls made one after the other (converters/writers/xml.py:30-59). -/
inductive XBody where
  | nil
  | cons (n : XNode) (rest : XBody)
end

/-- `" ".join(f'{name}="{value}"' ...)` (converters/writers/xml.py:43-46). -/
def xAttrs : List (PyStr × PyStr) → PyStr
  | [] => []
  | [(n, v)] => n ++ [0x3d, 0x22] ++ v ++ [0x22]
  | (n, v) :: a :: rest => n ++ [0x3d, 0x22] ++ v ++ [0x22, 0x20] ++ xAttrs (a :: rest)

/-- `deep_space*self.__levels_deep` (converters/writers/xml.py:31). -/
def xIndent (level : Nat) : PyStr := List.replicate level 0x20

mutual
/-- The text of one call (converters/writers/xml.py:30-59). -/
def xWriteNode (level : Nat) : XNode → PyStr
  | .elm tag attrs bare nolineend body =>
    xIndent level ++ ([0x3c] ++ tag ++ [0x20] ++ xAttrs attrs ++ [0x3e]) ++ (if bare then [] else [0x0a]) ++ xWrite (level + 1) body ++
      (if bare then [] else xIndent level) ++ ([0x3c, 0x2f] ++ tag ++ [0x3e]) ++ (if nolineend then [] else [0x0a])
  | .single tag attrs => xIndent level ++ ([0x3c] ++ tag ++ [0x20] ++ xAttrs attrs ++ [0x20, 0x2f, 0x3e]) ++ [0x0a]
  | .text t raw => if raw then t else xIndent level ++ t ++ [0x0a]
/-- The text of the calls made one after the other (converters/writers/xml.py:30-59). -/
def xWrite (level : Nat) : XBody → PyStr
  | .nil => []
  | .cons n rest => xWriteNode level n ++ xWrite level rest
end

/-- The first line of an XML file (converters/writers/xml.py:12-15). -/
def xHeader (codec : PyStr) : PyStr :=
  if codec = [] then pstr "<?xml version=\"1.0.0\" ?>" else pstr "<?xml version=\"1.0.0\" encoding=\"" ++ codec ++ pstr "\" ?>"

/-- The file written by `XMLMaker` (converters/writers/xml.py:10-20). -/
def xFile (codec : PyStr) (body : XBody) : PyStr := xHeader codec ++ xWrite 0 body

/-- The file written by `HTMLMaker` (converters/writers/html.py:13-20): no first line. -/
def hFile (body : XBody) : PyStr := xWrite 0 body

/-- `saxutils.escape` (used at converters/xml.py:108). -/
def saxEscape (s : PyStr) : PyStr :=
  replaceChar 0x3c (pstr "&lt;") (replaceChar 0x3e (pstr "&gt;") (replaceChar 0x26 (pstr "&amp;") s))

/-- The style attribute (converters/writers/html.py:42-46): `";".join(f'{name}: {value}' ...)`. -/
def hStyle : List (PyStr × PyStr) → PyStr
  | [] => []
  | [(n, v)] => n ++ [0x3a, 0x20] ++ v
  | (n, v) :: a :: rest => n ++ [0x3a, 0x20] ++ v ++ [0x3b] ++ hStyle (a :: rest)

end Pdf
