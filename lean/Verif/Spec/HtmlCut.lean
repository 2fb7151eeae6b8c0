import Verif.Model.HtmlCut
import Verif.Spec.ConvHtml
/-! What a conversion to HTML that ends with an exception leaves in its file. -/

namespace Pdf.Spec
open Pdf

/-- A char-block that the converter cannot write. -/
def BlockRefused (env : HtmlEnv) (cb : CharBlock) : Prop := env.fontWeight cb.font = none ∨ EmptyColor cb.color

/-- What is written of an item that the converter cannot write: nothing of a curve; the char-blocks before the first bad one; the children
of an xobject before the first bad one, and what is written of that one. -/
inductive Cut (env : HtmlEnv) : Item → List Item → Prop
  | curve {c} : CurveRefused c → Cut env (.curve c) []
  | text {b : TextBlock} {before cb after} : b.blocks = before ++ cb :: after → (∀ x ∈ before, ¬ BlockRefused env x) → BlockRefused env cb →
      Cut env (.text b) [.text { b with blocks := before }]
  | xobj {s b r m before i after l} : (∀ x ∈ before, ¬ Refused env x) → Cut env i l →
      Cut env (.xobj s b r m (before ++ i :: after)) [.xobj s b r m (before ++ l)]

/-- What is written of a page with an item that the converter cannot write: the items before it and what is written of that item. -/
inductive PageCut (env : HtmlEnv) : LtPage → LtPage → Prop
  | mk {num w h before i after l} : (∀ x ∈ before, ¬ Refused env x) → Cut env i l →
      PageCut env ⟨num, w, h, before ++ i :: after⟩ ⟨num, w, h, before ++ l⟩

/-- The pages that are in the file, and how the conversion ends, if the interpreter delivers these pages, begins another one and ends with an
exception, if it does. -/
inductive HtmlShown (env : HtmlEnv) (all : List LtPage) (error : Option PyErr) : List LtPage → HtmlEnd → Prop
  | done : (∀ p ∈ all, ∀ i ∈ p.items, ¬ Refused env i) → error = none → HtmlShown env all error all .done
  | raised {e} : (∀ p ∈ all, ∀ i ∈ p.items, ¬ Refused env i) → error = some e → HtmlShown env all error all (.raised e)
  | refused {before p after p'} : all = before ++ p :: after → (∀ q ∈ before, ∀ i ∈ q.items, ¬ Refused env i) → PageCut env p p' →
      HtmlShown env all error (before ++ [p']) .refused

/-- End tags of the elements with these names, each after spaces and with a line end, but for the last one. -/
inductive EndTags : PyStr → List PyStr → Prop
  | html : EndTags (pstr "</html>") [pstr "html"]
  | cons {n name t names} : EndTags t names → EndTags (List.replicate n 0x20 ++ pstr "</" ++ name ++ pstr ">\n" ++ t) (name :: names)

end Pdf.Spec
