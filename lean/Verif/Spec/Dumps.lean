import Verif.Model.Dumps
import Verif.Spec.Convert
import Verif.Spec.Text
import Verif.Spec.AttrNames
/-! What the texts of colours and paths stand for. -/

namespace Pdf.Spec

/-- The UTF-16 units of a character. -/
def units (c : Nat) : PyStr := if c < 0x10000 then [c] else [0xd800 + (c - 0x10000) / 1024, 0xdc00 + (c - 0x10000) % 1024]

mutual
/-- `Means p j`: the Python value `p` is the JSON value `j`; numbers have texts of JSON numbers. -/
inductive Means : PyJson → Json → Prop
  | none : Means .none (.lit (cp "null"))
  | num {t} : Number t → Means (.num t) (.num t)
  | str {s} : (∀ c ∈ s, c < 0x110000) → Means (.str s) (.str (s.flatMap units))
  | list {l js} : MeansAll l js → Means (.list l) (.arr js)
  | dict {l js} : MeansMembers l js → Means (.dict l) (.obj js)
inductive MeansAll : List PyJson → List Json → Prop
  | nil : MeansAll [] []
  | cons {p j l js} : Means p j → MeansAll l js → MeansAll (p :: l) (j :: js)
inductive MeansMembers : List (PyStr × PyJson) → List (PyStr × Json) → Prop
  | nil : MeansMembers [] []
  | cons {k p j l js} : (∀ c ∈ k, c < 0x110000) → Means p j → MeansMembers l js → MeansMembers ((k, p) :: l) ((k.flatMap units, j) :: js)
end

/-- The text `t` is markup for the text `s`: references stand for their characters. -/
def Marks (t s : PyStr) : Prop := ∃ b : Bytes, t = b.map UInt8.toNat ∧ Reads b s

/-- The value of a colour under a key is an object with the name of the colour space and the texts of the values, as markup. -/
def ColorIs (name : PyStr) (values : List PyStr) (j : Json) : Prop :=
  ∃ t ts, j = .obj [(pstr "type", .str t), (pstr "value", .arr (ts.map .str))] ∧ Marks t name ∧ List.Forall₂ Marks ts values

/-- The value of a path: the name of its method and its points. -/
def PathIs (fmt : ℚ → PyStr) (p : CurvePath) (j : Json) : Prop :=
  j = .obj [(pstr "type", .str (pstr (methodText p.method))), (pstr "points", .arr (p.points.map fun q =>
    .obj [(pstr "x", q.1.elim (.lit (pstr "null")) fun x => .num (fmt x)), (pstr "y", q.2.elim (.lit (pstr "null")) fun y => .num (fmt y))]))]

/-- The digits of a number, the first one not zero unless it is the only one. -/
structure DigitsOf (n : Nat) (s : PyStr) : Prop where
  digits : ∃ b : Bytes, s = b.map UInt8.toNat ∧ b ≠ [] ∧ (∀ d ∈ b, '0'.toNat ≤ d.toNat ∧ d.toNat ≤ '9'.toNat) ∧ digitsValue b = n
  lead : s.head? = some '0'.toNat → s = ['0'.toNat]

/-- The text of a value of a colour: a name by its characters, an integer by its digits with a sign in front if it is negative, and another number by the text of
its value. -/
inductive ValueText (fmt : ℚ → PyStr) : Obj → PyStr → Prop
  | name {n : Bytes} : (∀ c ∈ n, c.toNat < 128) → ValueText fmt (.name n) (n.map UInt8.toNat)
  | pos {n : Nat} {s} : DigitsOf n s → ValueText fmt (.int n) s
  | neg {n : Nat} {s} : DigitsOf (n + 1) s → ValueText fmt (.int (-((n : Int) + 1))) ('-'.toNat :: s)
  | real {m : Int} {k : Nat} : ValueText fmt (.real m k) (fmt (m / 10 ^ k))

/-- What a colour can have for values: numbers, and names in ASCII. -/
def ColorValue : Obj → Prop
  | .name n => ∀ c ∈ n, c.toNat < 128
  | .int _ => True
  | .real _ _ => True
  | _ => False

/-- Printable ASCII. -/
def PrintableAscii (s : PyStr) : Prop := ∀ c ∈ s, 0x20 ≤ c ∧ c ≤ 0x7e

mutual
/-- The texts of the numbers in a value are printable ASCII. -/
def NumsPrintable : PyJson → Prop
  | .num t => PrintableAscii t
  | .list l => NumsPrintables l
  | .dict l => NumsPrintableMembers l
  | _ => True
def NumsPrintables : List PyJson → Prop
  | [] => True
  | v :: l => NumsPrintable v ∧ NumsPrintables l
def NumsPrintableMembers : List (PyStr × PyJson) → Prop
  | [] => True
  | (_, v) :: l => NumsPrintable v ∧ NumsPrintableMembers l
end

/-- The keys of a font descriptor: one or more words with a capital each; values that can be attributes; no key twice, and none that would become an attribute that the
char-block has anyway. -/
structure FontKeys (l : List (PyStr × PyStr)) : Prop where
  words : ∀ p ∈ l, ∃ ws, ws ≠ [] ∧ (∀ w ∈ ws, KeyWord w) ∧ p.1 = ws.flatten
  values : ∀ p ∈ l, ∃ v, XmlValue p.2 v
  once : (l.map Prod.fst).Nodup
  other : ∀ p ∈ l, p.1 ∉ [pstr "Size", pstr "ColorType", pstr "ColorValues"]

end Pdf.Spec
