import Verif.Spec.Extract
/-! Where the things on a delivered page come from. Everything is relative to the content streams of a page (or of a form) and to its resources. -/

namespace Pdf.Spec
open Pdf

/-- An object in these content streams. -/
def InContent (E : Env1) (streams : List Obj) (o : Obj) : Prop := o ∈ (E.content streams).1

/-- An entry of a category (e.g. `Font`) in the resources. -/
def InResources (R : Resolver) (res : Obj) (category : String) (o : Obj) : Prop :=
  ∃ d v es k, R.dictValue res = .ok d ∧ (nm category, v) ∈ d ∧ R.dictValue v = .ok es ∧ (k, o) ∈ es

/-- A font that is made from a font dictionary in the resources. -/
def FontFrom (E : Env1) (res : Obj) (f : Font) : Prop :=
  ∃ o spec, InResources E.R res "Font" o ∧ E.R.dictValue o = .ok spec ∧ E.getFont (refId o) spec = .ok f

/-- A string in these content streams, by itself or as an element of an array. -/
def StringFrom (E : Env1) (streams : List Obj) (s : Bytes) : Prop := InContent E streams (.str s) ∨ ∃ l, InContent E streams (.arr l) ∧ .str s ∈ l

/-- A char-block has at least one character; its characters are those of strings in the content, decoded with the font of the block, one after another. -/
structure BlockFrom (E : Env1) (ignoreBad : Bool) (streams : List Obj) (res : Obj) (b : CharBlock) : Prop where
  font : FontFrom E res b.font
  chars : b.chars ≠ []
  text : ∃ strings codes, (∀ s ∈ strings, StringFrom E streams s) ∧ List.Forall₂ (fun s cs => b.font.decode s = .ok cs) strings codes ∧
    List.Forall₂ (CodeShows b.font ignoreBad) codes.flatten (b.chars.map Prod.fst)

/-- The resources with which a form in content with the resources `res` is interpreted: its own, unless they are missing or empty. -/
inductive FormUses (R : Resolver) (d : List (Key × Obj)) (res : Obj) : Obj → Prop
  | own {o r} : dictGet d (nm "Resources") = some o → o.truthy = true → R.dictValue o = .ok r → FormUses R d res (.dict r)
  | inherited : (∀ o, dictGet d (nm "Resources") = some o → o.truthy = false) → FormUses R d res res

/-- An item of content with these streams and resources: char-blocks, images and forms come from the content and the resources, and the items of a form
from the form. -/
inductive ItemFrom (E : Env1) : (ignoreBad : Bool) → (streams : List Obj) → (res : Obj) → Item → Prop
  | text {ig st res} {b : TextBlock} : (∀ cb ∈ b.blocks, BlockFrom E ig st res cb) → (b.bbox = none ↔ b.blocks = []) → ItemFrom E ig st res (.text b)
  | inlineImage {ig st res d data bbox} : InContent E st (.stream d data) → ItemFrom E ig st res (.image d data bbox)
  | image {ig st res o d data bbox} : InResources E.R res "XObject" o → E.R.streamValue o = .ok (d, data) → dictGet d (nm "Subtype") = some (.name (asc "Image")) →
      ItemFrom E ig st res (.image d data bbox)
  | form {ig st res o d data bbox res' m} {children : List Item} : InResources E.R res "XObject" o → E.R.streamValue o = .ok (d, data) →
      dictGet d (nm "Subtype") = some (.name (asc "Form")) → FormUses E.R d res res' →
      (∀ i ∈ children, ItemFrom E false [.stream d data] res' i) → ItemFrom E ig st res (.xobj (.stream d data) bbox res' m children)
  | curve {ig st res c} : ItemFrom E ig st res (.curve c)
  | none {ig st res} : ItemFrom E ig st res .none

end Pdf.Spec
