import Verif.Model.Paths
/-! Specification for C52: file names. -/

namespace Pdf.Spec

/-- The documented output types. -/
def outTypes : List PyStr := [pstr "html", pstr "xml", pstr "json", pstr "yaml", pstr "yml", pstr "text"]

/-- A directory part: nothing, the root, or a path that ends with one slash. -/
inductive DirPart : PyStr → Prop
  | here : DirPart []
  | root : DirPart (pstr "/")
  | sub (d : PyStr) (c : Nat) : c ≠ '/'.toNat → DirPart (d ++ [c] ++ pstr "/")

/-- What Python's `\w` must and must not contain here. -/
structure WordClass (isWord : Nat → Bool) : Prop where
  dot : isWord '.'.toNat = false
  slash : isWord '/'.toNat = false
  newline : isWord '\n'.toNat = false

end Pdf.Spec
