import Verif.Spec.Object
import Verif.Spec.Text
/-! Specification of the encoding in a Type 1 font program (C80). -/

namespace Pdf.Spec
open Pdf (Bytes Tok PyStr)

/-- The tokens of the clear-text part of a font program with the entries of its encoding: `code name put`. Other words and operands stand
anywhere; the array may be filled with `.notdef` first. -/
inductive T1Text : List Tok → List (Int × Bytes) → Prop
  | nil : T1Text [] []
  | other {t ts es} : t ≠ .kw (ascii "put") → t ≠ .kw (ascii "<<") → t ≠ .kw (ascii ">>") → T1Text ts es → T1Text (t :: ts) es
  | entry {c n ts es} : T1Text ts es → T1Text (.int c :: .lit n :: .kw (ascii "put") :: ts) ((c, n) :: es)
  | fill {ts es} : T1Text ts es →
      T1Text (.kw (ascii "{") :: .int 1 :: .kw (ascii "index") :: .kw (ascii "exch") :: .lit (ascii ".notdef") :: .kw (ascii "put") :: .kw (ascii "}") :: ts) es

/-- The text of a code: the character of the last name for it that stands for a character. -/
inductive LastNamed (glyph : Bytes → Option PyStr) (es : List (Int × Bytes)) (code : Int) : Option PyStr → Prop
  | given {before n after u} : es = before ++ (code, n) :: after → glyph n = some u → (∀ n', (code, n') ∈ after → glyph n' = none) →
      LastNamed glyph es code (some u)
  | missing : (∀ n, (code, n) ∈ es → glyph n = none) → LastNamed glyph es code none

end Pdf.Spec
