import Verif.Spec.Content
import Verif.Spec.Fonts
import Verif.Model.Interp
import Verif.Model.Text
/-! The text that a content stream shows, read off its operators. -/

namespace Pdf.Spec

/-- The text of a character code: what the font says, or nothing for an unknown code if bad characters are ignored. -/
inductive CodeShows (f : Font) (ignoreBad : Bool) : Int → PyStr → Prop
  | known {c t} : f.toUnichr c = .ok t → CodeShows f ignoreBad c t
  | unknown {c} : f.toUnichr c = .error .unicodeNotDefined → ignoreBad = true → CodeShows f ignoreBad c []

/-- The text of a string: that of its character codes, in order. -/
def StringText (f : Font) (ignoreBad : Bool) (s : Bytes) (t : PyStr) : Prop :=
  ∃ codes ts, f.decode s = .ok codes ∧ List.Forall₂ (CodeShows f ignoreBad) codes ts ∧ t = ts.flatten

/-- The text of the operand of `TJ`: that of its strings; the numbers between them only move. -/
inductive ArrayText (f : Font) (ignoreBad : Bool) : List Obj → PyStr → Prop
  | nil : ArrayText f ignoreBad [] []
  | number {o q l t} : o.num? = some q → ArrayText f ignoreBad l t → ArrayText f ignoreBad (o :: l) t
  | string {s l t u} : StringText f ignoreBad s t → ArrayText f ignoreBad l u → ArrayText f ignoreBad (.str s :: l) (t ++ u)

/-- The entry of a resource category (e.g. `Font`), as it stands in the resources. -/
def ResourceNamed (R : Resolver) (res : Obj) (category : String) (n : Bytes) (o : Obj) : Prop :=
  ∃ d es, R.resolve1 res = .ok (.dict d) ∧ (d.map Prod.fst).Nodup ∧ Entry R d category (some (.dict es)) ∧ (es.map Prod.fst).Nodup ∧ dictGet es (.name n) = some o

/-- The font with a name in the resources. -/
def FontNamed (E : Env1) (res : Obj) (n : Bytes) (f : Font) : Prop :=
  ∃ o d, ResourceNamed E.R res "Font" n o ∧ E.R.resolve1 o = .ok (.dict d) ∧ E.getFont (refId o) d = .ok f

/-- The external object with a name in the resources. -/
def XObjectNamed (R : Resolver) (res : Obj) (n : Bytes) (x : Obj) : Prop := ∃ o, ResourceNamed R res "XObject" n o ∧ R.resolve1 o = .ok x

/-- The stream is a form. -/
def IsForm (d : List (Key × Obj)) : Prop := dictGet d (nm "Subtype") = some (.name (asc "Form")) ∧ (dictGet d (nm "BBox")).isSome

/-- The resources of a form: its own, if it has some, otherwise those of the content that uses it. -/
inductive ResourcesOfForm (R : Resolver) (d : List (Key × Obj)) (res : Obj) : Obj → Prop
  | own {o r} : dictGet d (nm "Resources") = some o → o.truthy = true → R.resolve1 o = .ok (.dict r) → ResourcesOfForm R d res (.dict r)
  | inherited : dictGet d (nm "Resources") = none → ResourcesOfForm R d res res

/-- What matters for the text while a content stream is read: the current font, the saved fonts, and the text since `BT`, inside of a text
object. -/
structure Pen where
  font : Option Font
  saved : List (Option Font)
  shown : Option PyStr

/-- At the start of a content stream. -/
def Pen.start : Pen := ⟨none, [], none⟩

/-- The operators that matter for the text. -/
def textOperators : List Obj := ["q", "Q", "BT", "ET", "Tf", "Tj", "TJ", "'", "\"", "Do"].map operator

/-- `ProgramShows E ignoreBad res pen os t`: reading the objects `os` of a content stream with the resources `res`, starting with `pen`, shows the
text `t`. The text of a text object counts at its `ET`, that of a form at its `Do`. -/
inductive ProgramShows (E : Env1) : Bool → Obj → Pen → List Obj → PyStr → Prop
  | done {ig res pen} : ProgramShows E ig res pen [] []
  | operand {ig res pen o os t} : Operand o → ProgramShows E ig res pen os t → ProgramShows E ig res pen (o :: os) t
  | save {ig res font saved shown os t} : ProgramShows E ig res ⟨font, font :: saved, shown⟩ os t →
    ProgramShows E ig res ⟨font, saved, shown⟩ (operator "q" :: os) t
  | restore {ig res font f saved shown os t} : ProgramShows E ig res ⟨f, saved, shown⟩ os t →
    ProgramShows E ig res ⟨font, f :: saved, shown⟩ (operator "Q" :: os) t
  | restoreNone {ig res font shown os t} : ProgramShows E ig res ⟨font, [], shown⟩ os t →
    ProgramShows E ig res ⟨font, [], shown⟩ (operator "Q" :: os) t
  | beginText {ig res font saved os t} : ProgramShows E ig res ⟨font, saved, some []⟩ os t →
    ProgramShows E ig res ⟨font, saved, none⟩ (operator "BT" :: os) t
  | endText {ig res font saved u os t} : ProgramShows E ig res ⟨font, saved, none⟩ os t →
    ProgramShows E ig res ⟨font, saved, some u⟩ (operator "ET" :: os) (u ++ t)
  | endNone {ig res font saved os t} : ProgramShows E ig res ⟨font, saved, none⟩ os t →
    ProgramShows E ig res ⟨font, saved, none⟩ (operator "ET" :: os) t
  | selectFont {ig res font saved shown n size f os t} : Operand size → FontNamed E res n f → ProgramShows E ig res ⟨some f, saved, shown⟩ os t →
    ProgramShows E ig res ⟨font, saved, shown⟩ (.name n :: size :: operator "Tf" :: os) t
  | showString {ig res f saved u s v os t} : StringText f ig s v → ProgramShows E ig res ⟨some f, saved, some (u ++ v)⟩ os t →
    ProgramShows E ig res ⟨some f, saved, some u⟩ (.str s :: operator "Tj" :: os) t
  | showArray {ig res f saved u l v os t} : ArrayText f ig l v → ProgramShows E ig res ⟨some f, saved, some (u ++ v)⟩ os t →
    ProgramShows E ig res ⟨some f, saved, some u⟩ (.arr l :: operator "TJ" :: os) t
  | nextLineShow {ig res f saved u s v os t} : StringText f ig s v → ProgramShows E ig res ⟨some f, saved, some (u ++ v)⟩ os t →
    ProgramShows E ig res ⟨some f, saved, some u⟩ (.str s :: operator "'" :: os) t
  | spacedShow {ig res f saved u s v w c os t} : Operand w → Operand c → StringText f ig s v →
    ProgramShows E ig res ⟨some f, saved, some (u ++ v)⟩ os t →
    ProgramShows E ig res ⟨some f, saved, some u⟩ (w :: c :: .str s :: operator "\"" :: os) t
  | form {ig res pen n d raw res' v os t} : XObjectNamed E.R res n (.stream d raw) → IsForm d → ResourcesOfForm E.R d res res' →
    ProgramShows E false res' Pen.start (E.content [.stream d raw]).1 v → ProgramShows E ig res pen os t →
    ProgramShows E ig res pen (.name n :: operator "Do" :: os) (v ++ t)
  | xobject {ig res pen n d raw os t} : XObjectNamed E.R res n (.stream d raw) → ¬ IsForm d → ProgramShows E ig res pen os t →
    ProgramShows E ig res pen (.name n :: operator "Do" :: os) t
  | other {ig res pen n os t} : .kw n ∉ textOperators → (∀ c ∈ n, c ≠ 95) → ProgramShows E ig res pen os t → ProgramShows E ig res pen (.kw n :: os) t

end Pdf.Spec
