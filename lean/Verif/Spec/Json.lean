import Verif.Model.JsonWriter
/-! JSON (RFC 8259): which text stands for which value. Texts are lists of code points. -/

namespace Pdf.Spec

/-- JSON values; numbers and the literals by their text. -/
inductive Json where
  | num (text : PyStr)
  | lit (text : PyStr)
  | str (s : PyStr)
  | arr (l : List Json)
  | obj (l : List (PyStr × Json))

/-- The code points of a string. -/
def cp (s : String) : PyStr := s.toList.map Char.toNat

/-- White space. -/
def Ws (w : PyStr) : Prop := ∀ c ∈ w, c ∈ cp " \t\n\r"

def Digits (t : PyStr) : Prop := t ≠ [] ∧ ∀ c ∈ t, '0'.toNat ≤ c ∧ c ≤ '9'.toNat

/-- `number = [ minus ] int [ frac ] [ exp ]`. -/
def Number (t : PyStr) : Prop :=
  ∃ sign int frac exp, t = sign ++ int ++ frac ++ exp ∧ (sign = [] ∨ sign = cp "-") ∧
    (Digits int ∧ (int = cp "0" ∨ int.head? ≠ some '0'.toNat)) ∧
    (frac = [] ∨ ∃ d, Digits d ∧ frac = cp "." ++ d) ∧
    (exp = [] ∨ ∃ e s d, (e = cp "e" ∨ e = cp "E") ∧ (s = [] ∨ s = cp "+" ∨ s = cp "-") ∧ Digits d ∧ exp = e ++ s ++ d)

/-- The character of a two-character escape. -/
def escapes : List (Nat × Nat) :=
  [('"'.toNat, '"'.toNat), ('\\'.toNat, '\\'.toNat), ('/'.toNat, '/'.toNat), ('b'.toNat, 8), ('f'.toNat, 12), ('n'.toNat, 10), ('r'.toNat, 13),
    ('t'.toNat, 9)]

/-- The value of a hexadecimal digit. -/
def jsonHex (c : Nat) : Option Nat :=
  if '0'.toNat ≤ c ∧ c ≤ '9'.toNat then some (c - '0'.toNat)
  else if 'a'.toNat ≤ c ∧ c ≤ 'f'.toNat then some (c - 'a'.toNat + 10)
  else if 'A'.toNat ≤ c ∧ c ≤ 'F'.toNat then some (c - 'A'.toNat + 10)
  else none

/-- The inside of a string: a character that is not a quote, a backslash or a control character stands for itself. -/
inductive JsonStr : PyStr → PyStr → Prop
  | nil : JsonStr [] []
  | plain {c t s} : 0x20 ≤ c → c ≠ '"'.toNat → c ≠ '\\'.toNat → JsonStr t s → JsonStr (c :: t) (c :: s)
  | escape {e c t s} : (e, c) ∈ escapes → JsonStr t s → JsonStr ('\\'.toNat :: e :: t) (c :: s)
  | unicode {a b c d x y z w t s} : jsonHex a = some x → jsonHex b = some y → jsonHex c = some z → jsonHex d = some w →
      JsonStr t s → JsonStr ('\\'.toNat :: 'u'.toNat :: a :: b :: c :: d :: t) ((((x * 16 + y) * 16 + z) * 16 + w) :: s)

mutual
/-- `Value t v`: the text `t`, without white space around it, stands for the value `v`. -/
inductive Value : PyStr → Json → Prop
  | num {t} : Number t → Value t (.num t)
  | lit {t} : t ∈ [cp "true", cp "false", cp "null"] → Value t (.lit t)
  | str {t s} : JsonStr t s → Value (cp "\"" ++ t ++ cp "\"") (.str s)
  | arrEmpty {w} : Ws w → Value (cp "[" ++ w ++ cp "]") (.arr [])
  | arr {t l} : Elems t l → Value (cp "[" ++ t ++ cp "]") (.arr l)
  | objEmpty {w} : Ws w → Value (cp "{" ++ w ++ cp "}") (.obj [])
  | obj {t l} : Members t l → Value (cp "{" ++ t ++ cp "}") (.obj l)
/-- One or more elements. -/
inductive Elems : PyStr → List Json → Prop
  | one {w₁ t w₂ v} : Ws w₁ → Value t v → Ws w₂ → Elems (w₁ ++ t ++ w₂) [v]
  | more {w₁ t w₂ v r l} : Ws w₁ → Value t v → Ws w₂ → Elems r l → Elems (w₁ ++ t ++ w₂ ++ cp "," ++ r) (v :: l)
/-- One or more members. -/
inductive Members : PyStr → List (PyStr × Json) → Prop
  | one {w₁ k key w₂ w₃ t w₄ v} : Ws w₁ → JsonStr k key → Ws w₂ → Ws w₃ → Value t v → Ws w₄ →
      Members (w₁ ++ cp "\"" ++ k ++ cp "\"" ++ w₂ ++ cp ":" ++ w₃ ++ t ++ w₄) [(key, v)]
  | more {w₁ k key w₂ w₃ t w₄ v r l} : Ws w₁ → JsonStr k key → Ws w₂ → Ws w₃ → Value t v → Ws w₄ → Members r l →
      Members (w₁ ++ cp "\"" ++ k ++ cp "\"" ++ w₂ ++ cp ":" ++ w₃ ++ t ++ w₄ ++ cp "," ++ r) ((key, v) :: l)
end

/-- A JSON document. -/
def JsonText (t : PyStr) (v : Json) : Prop := ∃ w₁ m w₂, t = w₁ ++ m ++ w₂ ∧ Ws w₁ ∧ Ws w₂ ∧ Value m v

/-! ### The tree of calls -/

/-- A text without backslashes and control characters. -/
def Clean (s : PyStr) : Prop := ∀ c ∈ s, 0x20 ≤ c ∧ c ≠ '\\'.toNat

/-- The calls that write one scalar. -/
def Scalar : JVal → Prop
  | .num _ | .str _ | .placed _ => True
  | _ => False

mutual
/-- `WritesVal v j`: the call writes the value `j`. Numbers are written by their text; a placed text stands for a value; strings have no
backslash and no control character. -/
inductive WritesVal : JVal → Json → Prop
  | num {t} : Number t → WritesVal (.num t) (.num t)
  | str {s} : Clean s → WritesVal (.str s) (.str s)
  | placed {t j} : Value t j → WritesVal (.placed t) j
  | arr {l js} : WritesArr l js → WritesVal (.arr l) (.arr js)
  | obj {m js} : WritesObj [] m js → WritesVal (.obj m) (.obj js)
inductive WritesArr : JArr → List Json → Prop
  | nil : WritesArr .nil []
  | cons {v j l js} : WritesVal v j → WritesArr l js → WritesArr (.cons v l) (j :: js)
/-- The first call with a key counts; a scalar with a key that was used before is ignored. Keys have no quote either. -/
inductive WritesObj : List PyStr → JObj → List (PyStr × Json) → Prop
  | nil {seen} : WritesObj seen .nil []
  | cons {seen key v j m js} : key ∉ seen → Clean key → '"'.toNat ∉ key → WritesVal v j → WritesObj (key :: seen) m js →
      WritesObj seen (.cons key v m) ((key, j) :: js)
  | again {seen key v m js} : key ∈ seen → Scalar v → WritesObj seen m js → WritesObj seen (.cons key v m) js
end

end Pdf.Spec
