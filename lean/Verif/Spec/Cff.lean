import Verif.Model.Cff
import Verif.Spec.Png
/-! The compact font format (Adobe Technical Note 5176), as far as fonts are read here. -/

namespace Pdf.Spec
open Pdf

/-! ### Numbers (section 4) -/

/-- The lowest eight bits. -/
def lowByte (v : Int) : UInt8 := UInt8.ofNat (v % 256).toNat

/-- The ways to write an integer. -/
inductive CffInt : Int → Bytes → Prop
  | one {v : Int} : -107 ≤ v → v ≤ 107 → CffInt v [lowByte (v + 139)]
  | up {v : Int} : 108 ≤ v → v ≤ 1131 → CffInt v [lowByte ((v - 108) / 256 + 247), lowByte (v - 108)]
  | down {v : Int} : -1131 ≤ v → v ≤ -108 → CffInt v [lowByte ((-v - 108) / 256 + 251), lowByte (-v - 108)]
  | two {v : Int} : -32768 ≤ v → v ≤ 32767 → CffInt v [28, lowByte (v / 256), lowByte v]
  | four {v : Int} : -2147483648 ≤ v → v ≤ 2147483647 → CffInt v [29, lowByte (v / 16777216), lowByte (v / 65536), lowByte (v / 256), lowByte v]

/-- The decimal value of digits. -/
def decimalValue (ds : List (Fin 10)) : Nat := ds.foldl (fun n d => n * 10 + d.val) 0

/-- A decimal number: sign, digits before the point, digits after it if there is one, and an exponent with its sign if there is one. -/
structure CffDecimal where
  negative : Bool
  whole : List (Fin 10)
  fraction : Option (List (Fin 10))
  exponent : Option (Bool × List (Fin 10))

/-- There is a digit, and one in the exponent. -/
def CffDecimal.Ok (x : CffDecimal) : Prop := x.whole ++ x.fraction.getD [] ≠ [] ∧ ∀ e, x.exponent = some e → e.2 ≠ []

/-- What an exponent multiplies with. -/
def exponentValue : Option (Bool × List (Fin 10)) → ℚ
  | none => 1
  | some (false, e) => 10 ^ decimalValue e
  | some (true, e) => 1 / 10 ^ decimalValue e

/-- What the number is. -/
def CffDecimal.value (x : CffDecimal) : ℚ :=
  (if x.negative then -1 else 1) * decimalValue (x.whole ++ x.fraction.getD []) / 10 ^ (x.fraction.getD []).length *
    exponentValue x.exponent

/-- The nibbles of the digits after the point. -/
def fractionNibbles : Option (List (Fin 10)) → List Nat
  | none => []
  | some f => 0xa :: f.map Fin.val

/-- The nibbles of the exponent. -/
def exponentNibbles : Option (Bool × List (Fin 10)) → List Nat
  | none => []
  | some (false, e) => 0xb :: e.map Fin.val
  | some (true, e) => 0xc :: e.map Fin.val

/-- Its nibbles: `a` is the point, `b` the exponent, `c` the negative exponent, `e` the minus sign, `f` the end. -/
def CffDecimal.nibbles (x : CffDecimal) : List Nat :=
  (if x.negative then [0xe] else []) ++ x.whole.map Fin.val ++ fractionNibbles x.fraction ++ exponentNibbles x.exponent ++ [0xf]

/-- Two nibbles in a byte; the last byte is filled with `f`. -/
def nibbleBytes : List Nat → Bytes
  | a :: b :: r => UInt8.ofNat (a * 16 + b) :: nibbleBytes r
  | [a] => [UInt8.ofNat (a * 16 + 0xf)]
  | [] => []

/-- The ways to write a number. -/
inductive CffNumber : CffNum → Bytes → Prop
  | int {v t} : CffInt v t → CffNumber (.int v) t
  | real {x : CffDecimal} : x.Ok → CffNumber (.real x.value) (30 :: nibbleBytes x.nibbles)

/-! ### Dictionaries (section 4) -/

/-- The bytes of an operator: one byte up to 21, but not 12; or 12 and another byte, which is the operator 3072 more than that byte. -/
inductive CffOperator : Nat → Bytes → Prop
  | one {op : Nat} : op ≤ 21 → op ≠ 12 → CffOperator op [UInt8.ofNat op]
  | two {b : UInt8} : CffOperator (3072 + b.toNat) [12, b]

/-- A dictionary: operands, then the operator. -/
inductive CffDictData : List (Nat × List CffNum) → Bytes → Prop
  | nil : CffDictData [] []
  | cons {op o vs ts es t} : CffOperator op o → List.Forall₂ CffNumber vs ts → CffDictData es t → CffDictData ((op, vs) :: es) (ts.flatten ++ o ++ t)

/-- The operands of an operator: the last ones. -/
def operandsOf (es : List (Nat × List CffNum)) (op : Nat) : Option (List CffNum) := (es.reverse.find? fun e => e.1 = op).map Prod.snd

/-! ### Indexes (section 5) -/

/-- Where the objects begin, and the end of the last one, counted from the byte before the first one. -/
def offsetsFrom (p : Nat) : List Bytes → List Nat
  | [] => [p]
  | x :: r => p :: offsetsFrom (p + x.length) r

/-- An index with these objects: their number, the size of offsets, the offsets, and the objects. Without objects there is only the number. -/
inductive CffIndexData : List Bytes → Bytes → Prop
  | nil : CffIndexData [] [0, 0]
  | some {items : List Bytes} {hi lo size : UInt8} {os : List Bytes} : items ≠ [] → beValue [hi, lo] = items.length → 1 ≤ size.toNat → size.toNat ≤ 4 →
      (∀ o ∈ os, o.length = size.toNat) → os.map beValue = offsetsFrom 1 items →
      CffIndexData items ([hi, lo, size] ++ os.flatten ++ items.flatten)

/-! ### Fonts (sections 6 to 15) -/

/-- The string with this number: one of the standard strings, or one of the font. -/
inductive StringOf (strings : List Bytes) : Nat → CffName → Prop
  | std {sid s} : cffStrings[sid]? = some s → StringOf strings sid (.std s)
  | own {sid b} : 391 ≤ sid → strings[sid - 391]? = some b → StringOf strings sid (.own b)

/-- Encodings: the codes of the glyphs from 1 on (format 0), or ranges of codes (format 1), each with its first code and the number of those that follow. -/
inductive CffEncodingData : List Nat → Bytes → Prop
  | codes {n : UInt8} {cs : Bytes} : cs.length = n.toNat → CffEncodingData (cs.map UInt8.toNat) ([0, n] ++ cs)
  | ranges {n : UInt8} {rs : List (UInt8 × UInt8)} : rs.length = n.toNat →
      CffEncodingData (rs.flatMap fun r => List.range' r.1.toNat (r.2.toNat + 1)) ([1, n] ++ rs.flatMap fun r => [r.1, r.2])

/-- Charsets: the numbers of the strings of the glyphs from 1 on, one by one (format 0) or in ranges (formats 1 and 2), each with its first string and the
number of those that follow. -/
inductive CffCharsetData : (format : UInt8) → List Nat → Bytes → Prop
  | names {ss : List Bytes} : (∀ s ∈ ss, s.length = 2) → CffCharsetData 0 (ss.map beValue) (0 :: ss.flatten)
  | ranges {rs : List (Bytes × UInt8)} : (∀ r ∈ rs, r.1.length = 2) →
      CffCharsetData 1 (rs.flatMap fun r => List.range' (beValue r.1) (r.2.toNat + 1)) (1 :: rs.flatMap fun r => r.1 ++ [r.2])
  | wide {rs : List (Bytes × Bytes)} : (∀ r ∈ rs, r.1.length = 2 ∧ r.2.length = 2) →
      CffCharsetData 2 (rs.flatMap fun r => List.range' (beValue r.1) (beValue r.2 + 1)) (2 :: rs.flatMap fun r => r.1 ++ r.2)

/-- A font in a file: the header, the four indexes, the rest, and, at the places that the first dictionary says, the encoding, the charset and the glyphs. -/
structure CffFile (data : Bytes) (names strings subrs glyphs : List Bytes) (top : List (Nat × List CffNum)) (codes : List Nat) (format : UInt8)
    (sids : List Nat) (rest : Bytes) : Prop where
  layout : ∃ major minor size absolute more tn td tt ts tg, data = [major, minor, size, absolute] ++ more ++ tn ++ td ++ ts ++ tg ++ rest ∧
    size.toNat = 4 + more.length ∧ CffIndexData names tn ∧ CffDictData top tt ∧ CffIndexData [tt] td ∧ CffIndexData strings ts ∧ CffIndexData subrs tg
  glyphsAt : ∃ p t rest, operandsOf top 17 = some [.int p] ∧ 0 ≤ p ∧ data.drop p.toNat = t ++ rest ∧ CffIndexData glyphs t
  encodingAt : ∃ p t rest, operandsOf top 16 = some [.int p] ∧ 0 ≤ p ∧ data.drop p.toNat = t ++ rest ∧ CffEncodingData codes t
  charsetAt : ∃ p t rest, operandsOf top 15 = some [.int p] ∧ 0 ≤ p ∧ data.drop p.toNat = t ++ rest ∧ CffCharsetData format sids t
  count : sids.length + 1 = glyphs.length

/-- An index holds these objects. -/
structure Holds (data : Bytes) (x : CffIndex) (items : List Bytes) : Prop where
  count : x.count = items.length
  item : ∀ i b, items[i]? = some b → ∃ p, x.get data i = .ok (b, p)
  beyond : ∀ i, items.length ≤ i → x.get data i = .error .indexError

end Pdf.Spec
