import Verif.Spec.Extract
/-! Content streams whose operators have the operands that they need. -/

namespace Pdf.Spec

/-- A number. -/
def IsNumber (o : Obj) : Prop := ∃ q, o.num? = some q

/-- The operators with numbers as operands, and how many. -/
def numberOperators : List (String × Nat) :=
  [("cm", 6), ("w", 1), ("J", 1), ("j", 1), ("M", 1), ("i", 1), ("m", 2), ("l", 2), ("c", 6), ("v", 4), ("y", 4), ("re", 4), ("G", 1), ("g", 1),
   ("RG", 3), ("rg", 3), ("K", 4), ("k", 4), ("Tc", 1), ("Tw", 1), ("Tz", 1), ("TL", 1), ("Tr", 1), ("Ts", 1), ("Td", 2), ("TD", 2), ("Tm", 6)]

/-- The operators without operands, and those that set a colour, which take as many of the operands before them as the colour space has
components. -/
def bareOperators : List String :=
  ["h", "S", "s", "f", "F", "f*", "B", "B*", "b", "b*", "n", "T*", "SC", "SCN", "sc", "scn"]

/-- The other operators that pdfmajor knows. -/
def otherOperators : List String := ["q", "Q", "d", "ri", "CS", "cs", "BT", "ET", "Tf", "Tj", "TJ", "'", "\"", "EI", "Do"]

/-- All operators that pdfmajor knows. -/
def knownOperators : List Obj := (numberOperators.map Prod.fst ++ bareOperators ++ otherOperators).map operator

/-- The colour spaces with a name of their own. -/
def spaceNames : List Bytes := ["DeviceGray", "CalRGB", "CalGray", "Lab", "DeviceRGB", "DeviceCMYK", "Separation", "Indexed", "Pattern"].map asc

/-- A colour space in the resources. -/
inductive IsSpace (R : Resolver) : Obj → Prop
  | named {o n} : R.resolve1 o = .ok (.name n) → n ∈ spaceNames → IsSpace R o
  | single {o n} : R.resolve1 o = .ok (.arr [.name n]) → n ∈ spaceNames → IsSpace R o
  | family {o n y l} : R.resolve1 o = .ok (.arr (.name n :: y :: l)) → n ∈ spaceNames → IsSpace R o
  | icc {o y l d raw} {k : Int} : R.resolve1 o = .ok (.arr (.name (asc "ICCBased") :: y :: l)) → R.resolve1 y = .ok (.stream d raw) →
    dictGet d (nm "N") = some (.int k) → IsSpace R o
  | deviceN {o y l names} : R.resolve1 o = .ok (.arr (.name (asc "DeviceN") :: y :: l)) → R.resolve1 y = .ok (.arr names) → IsSpace R o

/-- Resources that can be used: fonts that can be loaded, colour spaces. -/
structure UsableResources (E : Env1) (d : List (Key × Obj)) : Prop where
  distinct : (d.map Prod.fst).Nodup
  fonts : ∀ o, dictGet d (nm "Font") = some o →
    ∃ es, E.R.resolve1 o = .ok (.dict es) ∧ ∀ e ∈ es, ∃ fd f, E.R.resolve1 e.2 = .ok (.dict fd) ∧ E.getFont (refId e.2) fd = .ok f
  spaces : ∀ o, dictGet d (nm "ColorSpace") = some o → ∃ es, E.R.resolve1 o = .ok (.dict es) ∧ ∀ e ∈ es, IsSpace E.R e.2
  procSet : ∀ o, dictGet d (nm "ProcSet") = some o → ∃ v, E.R.resolve1 o = .ok v
  xobjects : ∀ o, dictGet d (nm "XObject") = some o → ∃ v, E.R.resolve1 o = .ok v

/-- The font knows the measures that are needed to place a character. -/
def Measured (f : Font) (c : Int) : Prop :=
  (∃ w, f.charWidth c = .ok w) ∧
  (f.vertical = true → (∃ v, f.charDisp c = .ok v) ∧ ∃ w, f.width = .ok w) ∧
  (f.vertical = false → (∃ h, f.height = .ok h) ∧ ∃ d, f.descent = .ok d)

/-- The text of a string whose characters can be placed. -/
def PlacedText (f : Font) (ignoreBad : Bool) (s : Bytes) (t : PyStr) : Prop :=
  ∃ codes ts, f.decode s = .ok codes ∧ List.Forall₂ (CodeShows f ignoreBad) codes ts ∧ t = ts.flatten ∧ ∀ c ∈ codes, Measured f c

/-- The text of an array whose characters can be placed. -/
inductive PlacedArray (f : Font) (ignoreBad : Bool) : List Obj → PyStr → Prop
  | nil : PlacedArray f ignoreBad [] []
  | number {o q l t} : o.num? = some q → PlacedArray f ignoreBad l t → PlacedArray f ignoreBad (o :: l) t
  | string {s l t u} : PlacedText f ignoreBad s t → PlacedArray f ignoreBad l u → PlacedArray f ignoreBad (.str s :: l) (t ++ u)

/-- At least one of the elements is a string with a character. -/
def HasCharacter (f : Font) (l : List Obj) : Prop := ∃ s c codes, .str s ∈ l ∧ f.decode s = .ok (c :: codes)

/-- The box of a form, and its matrix if it has one. -/
def FormBoxes (R : Resolver) (d : List (Key × Obj)) : Prop :=
  (∃ x y w h, Entry R d "BBox" (some (.arr [x, y, w, h])) ∧ IsNumber x ∧ IsNumber y ∧ IsNumber w ∧ IsNumber h) ∧
  (dictGet d (nm "Matrix") = none ∨ ∃ l, Entry R d "Matrix" (some (.arr l)) ∧ l.length = 6 ∧ ∀ x ∈ l, IsNumber x)

/-- `WellFormed E ignoreBad res pen os t`: in the content `os` every operator has the operands that it needs right before it, text is shown
between `BT` and `ET` with a font selected, every shown string has a character, names are those of resources; and it shows the text `t`. -/
inductive WellFormed (E : Env1) : Bool → List (Key × Obj) → Pen → List Obj → PyStr → Prop
  | done {ig res pen} : WellFormed E ig res pen [] []
  | operand {ig res pen o os t} : Operand o → WellFormed E ig res pen os t → WellFormed E ig res pen (o :: os) t
  | save {ig res font saved shown os t} : WellFormed E ig res ⟨font, font :: saved, shown⟩ os t →
    WellFormed E ig res ⟨font, saved, shown⟩ (operator "q" :: os) t
  | restore {ig res font f saved shown os t} : WellFormed E ig res ⟨f, saved, shown⟩ os t →
    WellFormed E ig res ⟨font, f :: saved, shown⟩ (operator "Q" :: os) t
  | restoreNone {ig res font shown os t} : WellFormed E ig res ⟨font, [], shown⟩ os t →
    WellFormed E ig res ⟨font, [], shown⟩ (operator "Q" :: os) t
  | beginText {ig res font saved os t} : WellFormed E ig res ⟨font, saved, some []⟩ os t →
    WellFormed E ig res ⟨font, saved, none⟩ (operator "BT" :: os) t
  | endText {ig res font saved u os t} : WellFormed E ig res ⟨font, saved, none⟩ os t →
    WellFormed E ig res ⟨font, saved, some u⟩ (operator "ET" :: os) (u ++ t)
  | endNone {ig res font saved os t} : WellFormed E ig res ⟨font, saved, none⟩ os t →
    WellFormed E ig res ⟨font, saved, none⟩ (operator "ET" :: os) t
  | selectFont {ig res font saved shown n size f os t} : IsNumber size → FontNamed E (.dict res) n f → WellFormed E ig res ⟨some f, saved, shown⟩ os t →
    WellFormed E ig res ⟨font, saved, shown⟩ (.name n :: size :: operator "Tf" :: os) t
  | showString {ig res f saved u s v os t} : PlacedText f ig s v → HasCharacter f [.str s] → WellFormed E ig res ⟨some f, saved, some (u ++ v)⟩ os t →
    WellFormed E ig res ⟨some f, saved, some u⟩ (.str s :: operator "Tj" :: os) t
  | showArray {ig res f saved u l v os t} : PlacedArray f ig l v → HasCharacter f l → WellFormed E ig res ⟨some f, saved, some (u ++ v)⟩ os t →
    WellFormed E ig res ⟨some f, saved, some u⟩ (.arr l :: operator "TJ" :: os) t
  | nextLineShow {ig res f saved u s v os t} : PlacedText f ig s v → HasCharacter f [.str s] → WellFormed E ig res ⟨some f, saved, some (u ++ v)⟩ os t →
    WellFormed E ig res ⟨some f, saved, some u⟩ (.str s :: operator "'" :: os) t
  | spacedShow {ig res f saved u s v w c os t} : IsNumber w → IsNumber c → PlacedText f ig s v → HasCharacter f [.str s] →
    WellFormed E ig res ⟨some f, saved, some (u ++ v)⟩ os t →
    WellFormed E ig res ⟨some f, saved, some u⟩ (w :: c :: .str s :: operator "\"" :: os) t
  | form {ig res pen n d raw res' v os t} : XObjectNamed E.R (.dict res) n (.stream d raw) → IsForm d → FormBoxes E.R d →
    ResourcesOfForm E.R d (.dict res) (.dict res') → UsableResources E res' →
    (E.content [.stream d raw]).2 = none →
    WellFormed E false res' Pen.start (E.content [.stream d raw]).1 v → WellFormed E ig res pen os t →
    WellFormed E ig res pen (.name n :: operator "Do" :: os) (v ++ t)
  | xobject {ig res pen n d raw os t} : XObjectNamed E.R (.dict res) n (.stream d raw) → ¬ IsForm d → WellFormed E ig res pen os t →
    WellFormed E ig res pen (.name n :: operator "Do" :: os) t
  | image {ig res pen d raw os t} : WellFormed E ig res pen os t → WellFormed E ig res pen (.stream d raw :: operator "EI" :: os) t
  | numbers {ig res pen n k os t} (as : List Obj) : (n, k) ∈ numberOperators → as.length = k → (∀ a ∈ as, IsNumber a) → WellFormed E ig res pen os t →
    WellFormed E ig res pen (as ++ operator n :: os) t
  | bare {ig res pen n os t} : n ∈ bareOperators → WellFormed E ig res pen os t → WellFormed E ig res pen (operator n :: os) t
  | dash {ig res pen a b os t} : Operand a → Operand b → WellFormed E ig res pen os t → WellFormed E ig res pen (a :: b :: operator "d" :: os) t
  | intent {ig res pen a os t} : Operand a → WellFormed E ig res pen os t → WellFormed E ig res pen (a :: operator "ri" :: os) t
  | space {ig res pen n op os t} : op = "CS" ∨ op = "cs" → (n ∈ spaceNames ∨ ∃ o, ResourceNamed E.R (.dict res) "ColorSpace" n o) →
    WellFormed E ig res pen os t → WellFormed E ig res pen (.name n :: operator op :: os) t
  | unknown {ig res pen n os t} : .kw n ∉ knownOperators → (∀ c ∈ n, c ≠ 95) → WellFormed E ig res pen os t → WellFormed E ig res pen (.kw n :: os) t

end Pdf.Spec
