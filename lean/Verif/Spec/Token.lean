import Verif.Model.Lexer
/-! Specification of the lexical syntax of PDF, independent of the tokenizer's states: how a value is spelled
(ISO 32000, 7.2-7.3), and what a text made of spelled tokens, white space and comments is. Of the model it
uses only the token type `Tok`. -/

namespace Pdf.Spec
open Pdf (Bytes Tok)

/-- White space: tab, line feed, vertical tab, form feed, carriage return, space. -/
def White (c : UInt8) : Prop := c ∈ [9, 10, 11, 12, 13, 32]
instance (c) : Decidable (White c) := inferInstanceAs (Decidable (_ ∈ _))

/-- The bytes that end a name or keyword: white space and `# / % [ ] ( ) < > { }`. -/
def Delim (c : UInt8) : Prop := White c ∨ c ∈ ([35, 47, 37, 91, 93, 40, 41, 60, 62, 123, 125] : Bytes)
instance (c) : Decidable (Delim c) := inferInstanceAs (Decidable (_ ∨ _))

def Digit (c : UInt8) : Prop := 48 ≤ c.toNat ∧ c.toNat ≤ 57
instance (c) : Decidable (Digit c) := inferInstanceAs (Decidable (_ ∧ _))

/-- Decimal value, most significant digit first. -/
def decimal : Bytes → Nat
  | [] => 0
  | c :: cs => (c.toNat - 48) * 10 ^ cs.length + decimal cs

/-- An optional sign and its effect. -/
inductive Sign : Bytes → (Nat → Int) → Prop
  | none : Sign [] (fun n => n)
  | plus : Sign [43] (fun n => n)
  | minus : Sign [45] (fun n => -n)

/-- Value of one hexadecimal digit. -/
def hexDigit (c : UInt8) : Option Nat :=
  if 48 ≤ c.toNat ∧ c.toNat ≤ 57 then some (c.toNat - 48)
  else if 97 ≤ c.toNat ∧ c.toNat ≤ 102 then some (c.toNat - 87)
  else if 65 ≤ c.toNat ∧ c.toNat ≤ 70 then some (c.toNat - 55)
  else none

/-- `StrBody e v`: `e` is the inside of a literal string with value `v`. -/
inductive StrBody : Bytes → Bytes → Prop
  | nil : StrBody [] []
  /-- any byte but parentheses and backslash stands for itself -/
  | plain {c e v} : c ≠ 40 → c ≠ 41 → c ≠ 92 → StrBody e v → StrBody (c :: e) (c :: v)
  /-- `\n \r \t \b \f \( \) \\` -/
  | esc {x c e v} : (x, c) ∈ ([(110, 10), (114, 13), (116, 9), (98, 8), (102, 12), (40, 40), (41, 41), (92, 92)] : List (UInt8 × UInt8)) →
      StrBody e v → StrBody (92 :: x :: e) (c :: v)
  /-- three octal digits -/
  | oct {a b d : Nat} {e v} : a < 4 → b < 8 → d < 8 → StrBody e v →
      StrBody (92 :: UInt8.ofNat (48 + a) :: UInt8.ofNat (48 + b) :: UInt8.ofNat (48 + d) :: e)
        (UInt8.ofNat (64 * a + 8 * b + d) :: v)
  /-- one or two octal digits, if no octal digit follows (`e = []` means that the closing parenthesis does) -/
  | oct1 {a : Nat} {e v} : a < 8 → (∀ c ∈ e.head?, ¬ (48 ≤ c.toNat ∧ c.toNat ≤ 55)) → StrBody e v →
      StrBody (92 :: UInt8.ofNat (48 + a) :: e) (UInt8.ofNat a :: v)
  | oct2 {a b : Nat} {e v} : a < 8 → b < 8 → (∀ c ∈ e.head?, ¬ (48 ≤ c.toNat ∧ c.toNat ≤ 55)) → StrBody e v →
      StrBody (92 :: UInt8.ofNat (48 + a) :: UInt8.ofNat (48 + b) :: e) (UInt8.ofNat (8 * a + b) :: v)
  /-- backslash at the end of a line: the line goes on -/
  | cont {c e v} : c = 10 ∨ c = 13 → StrBody e v → StrBody (92 :: c :: e) v
  /-- balanced parentheses need no escape -/
  | nest {e₁ v₁ e₂ v₂} : StrBody e₁ v₁ → StrBody e₂ v₂ →
      StrBody (40 :: e₁ ++ 41 :: e₂) (40 :: v₁ ++ 41 :: v₂)

/-- `HexBody e v`: `e` is the inside of a hexadecimal string with value `v`: two digits per byte, white space
anywhere. -/
inductive HexBody : Bytes → Bytes → Prop
  | nil : HexBody [] []
  | white {c e v} : White c → HexBody e v → HexBody (c :: e) v
  | pair {a b x y e v w} : hexDigit a = some x → hexDigit b = some y → (∀ c ∈ w, White c) → HexBody e v →
      HexBody (a :: w ++ b :: e) (UInt8.ofNat (16 * x + y) :: v)

/-- `NameBody e v`: `e`, after the slash, spells the name `v`. -/
inductive NameBody : Bytes → Bytes → Prop
  | nil : NameBody [] []
  | plain {c e v} : ¬ Delim c → NameBody e v → NameBody (c :: e) (c :: v)
  | hex {a b x y e v} : hexDigit a = some x → hexDigit b = some y → NameBody e v →
      NameBody (35 :: a :: b :: e) (UInt8.ofNat (16 * x + y) :: v)

/-- What must not follow a token for it to end there. -/
inductive Ends where
  | anything | notDigitOrDot | delimiter | notGreater

/-- `Spells e t k`: the bytes `e` spell the token `t`, which ends where `k` says. -/
inductive Spells : Bytes → Tok → Ends → Prop
  | int {s f ds} : Sign s f → ds ≠ [] → (∀ c ∈ ds, Digit c) → Spells (s ++ ds) (.int (f (decimal ds))) .notDigitOrDot
  | real {s f ip fp} : Sign s f → (ip ≠ [] ∨ fp ≠ []) → (∀ c ∈ ip, Digit c) → (∀ c ∈ fp, Digit c) →
      Spells (s ++ ip ++ 46 :: fp) (.real (f (decimal (ip ++ fp))) fp.length) .notDigitOrDot
  | str {e v} : StrBody e v → Spells (40 :: e ++ [41]) (.str v) .anything
  | hexStr {e v} : HexBody e v → Spells (60 :: e ++ [62]) (.str v) .notGreater
  | name {e v} : NameBody e v → Spells (47 :: e) (.lit v) .delimiter
  /-- `true` -/
  | true : Spells [116, 114, 117, 101] (.bool true) .delimiter
  /-- `false` -/
  | false : Spells [102, 97, 108, 115, 101] (.bool false) .delimiter
  | keyword {c cs} : (65 ≤ c.toNat ∧ c.toNat ≤ 90) ∨ (97 ≤ c.toNat ∧ c.toNat ≤ 122) → (∀ x ∈ cs, ¬ Delim x) →
      c :: cs ≠ [116, 114, 117, 101] → c :: cs ≠ [102, 97, 108, 115, 101] → Spells (c :: cs) (.kw (c :: cs)) .delimiter
  /-- `[ ] { }` -/
  | bracket {c} : c ∈ ([91, 93, 123, 125] : Bytes) → Spells [c] (.kw [c]) .anything
  /-- `<<` -/
  | dictOpen : Spells [60, 60] (.kw [60, 60]) .anything
  /-- `>>` -/
  | dictClose : Spells [62, 62] (.kw [62, 62]) .anything

/-- The text `rest` after a token lets it end. (At the end of the file only self-delimiting tokens do: the
tokenizer does not report a number, name or keyword that is cut off by the end of the file.) -/
def Ends.ok : Ends → Bytes → Prop
  | .anything, _ => True
  | .notGreater, rest => ∀ c ∈ rest.head?, c ≠ 62
  | .notDigitOrDot, rest => ∃ c r, rest = c :: r ∧ ¬ Digit c ∧ c ≠ 46
  | .delimiter, rest => ∃ c r, rest = c :: r ∧ Delim c ∧ c ≠ 35

/-- `Text p ts a b`: the bytes `a`, which start at offset `p` of the file and are followed there by the
bytes `b`, consist of the tokens `ts` (with their offsets), white space and comments. -/
inductive Text : Nat → List (Nat × Tok) → Bytes → Bytes → Prop
  | nil {p b} : Text p [] [] b
  | white {p ts c a b} : White c → Text (p + 1) ts a b → Text p ts (c :: a) b
  /-- `%` up to the end of the line -/
  | comment {p ts body c a b} : (∀ x ∈ body, x ≠ 10 ∧ x ≠ 13) → c = 10 ∨ c = 13 →
      Text (p + body.length + 2) ts a b → Text p ts (37 :: body ++ c :: a) b
  | tok {p t k ts e a b} : Spells e t k → k.ok (a ++ b) → Text (p + e.length) ts a b →
      Text p ((p, t) :: ts) (e ++ a) b

/-- What the byte at the start of a token looks like, for any token the tokenizer may report: keywords are
spelled out at their position. -/
def TokAt (data : Bytes) (q : Nat) : Tok → Prop
  | .int _ => ∃ c, data[q]? = some c ∧ (Digit c ∨ c = 43 ∨ c = 45)
  | .real _ _ => ∃ c, data[q]? = some c ∧ (Digit c ∨ c = 43 ∨ c = 45 ∨ c = 46)
  | .str _ => data[q]? = some 40 ∨ data[q]? = some 60
  | .lit _ => data[q]? = some 47
  | .bool b => (if b then [116, 114, 117, 101] else [102, 97, 108, 115, 101]) <+: data.drop q
  | .kw name => name ≠ [] ∧ name <+: data.drop q

end Pdf.Spec
