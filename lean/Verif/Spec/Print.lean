import Verif.Spec.Object
/-! A printer for objects: one way of writing each object as bytes. -/

namespace Pdf.Spec
open Pdf (Bytes Tok Obj Key)

def natDigits (n : Nat) : Bytes :=
  if n < 10 then [UInt8.ofNat (48 + n)] else natDigits (n / 10) ++ [UInt8.ofNat (48 + n % 10)]
termination_by n

def signOf (n : Int) : Bytes := if n < 0 then [45] else []

/-- At least `k + 1` digits. -/
def padded (n k : Nat) : Bytes := List.replicate (k + 1 - (natDigits n).length) 48 ++ natDigits n

/-- Each byte as a three digit octal escape. -/
def octalBody : Bytes → Bytes
  | [] => []
  | c :: cs => 92 :: UInt8.ofNat (48 + c.toNat / 64) :: UInt8.ofNat (48 + c.toNat % 64 / 8) :: UInt8.ofNat (48 + c.toNat % 8) :: octalBody cs

def hexChr (n : Nat) : UInt8 := UInt8.ofNat (if n < 10 then 48 + n else 87 + n)

/-- Letters and digits as they are, other bytes as `#xx`. -/
def nameBody : Bytes → Bytes
  | [] => []
  | c :: cs =>
    if (48 ≤ c.toNat ∧ c.toNat ≤ 57) ∨ (65 ≤ c.toNat ∧ c.toNat ≤ 90) ∨ (97 ≤ c.toNat ∧ c.toNat ≤ 122) then c :: nameBody cs
    else 35 :: hexChr (c.toNat / 16) :: hexChr (c.toNat % 16) :: nameBody cs

/-- One token. `real m k` is the number `m / 10^k`. -/
def printTok : Tok → Bytes
  | .int n => signOf n ++ natDigits n.natAbs
  | .real m k => signOf m ++ (padded m.natAbs k).take ((padded m.natAbs k).length - k) ++ 46 ::
      (padded m.natAbs k).drop ((padded m.natAbs k).length - k)
  | .bool b => if b then [116, 114, 117, 101] else [102, 97, 108, 115, 101]
  | .str s => 40 :: octalBody s ++ [41]
  | .lit n => 47 :: nameBody n
  | .kw n => n

/-- Tokens separated by spaces. -/
def printToks : List Tok → Bytes
  | [] => []
  | t :: ts => printTok t ++ 32 :: printToks ts

mutual
def objToks : Obj → List Tok
  | .null => [.kw [110, 117, 108, 108]]
  | .int n => [.int n]
  | .real m k => [.real m k]
  | .bool b => [.bool b]
  | .str s => [.str s]
  | .name n => [.lit n]
  | .kw n => [.kw n]
  | .ref i g => [.int i, .int g, .kw [82]]
  | .arr l => .kw [91] :: seqToks l ++ [.kw [93]]
  | .dict d => .kw [60, 60] :: itemToks d ++ [.kw [62, 62]]
  | .stream _ _ => []
def seqToks : List Obj → List Tok
  | [] => []
  | o :: os => objToks o ++ seqToks os
def itemToks : List (Key × Obj) → List Tok
  | [] => []
  | (.name k, v) :: d => .lit k :: objToks v ++ itemToks d
  | (_, _) :: d => itemToks d
end

def printObj (o : Obj) : Bytes := printToks (objToks o)

mutual
/-- The objects of the round trip: anything nested, without `null`, bare keywords and streams; the keys of a dictionary
are distinct names. -/
def WF : Obj → Prop
  | .null => False
  | .kw _ => False
  | .stream _ _ => False
  | .arr l => WFs l
  | .dict d => (d.map Prod.fst).Nodup ∧ WFitems d
  | _ => True
def WFs : List Obj → Prop
  | [] => True
  | o :: os => WF o ∧ WFs os
def WFitems : List (Key × Obj) → Prop
  | [] => True
  | (k, v) :: d => (∃ n, k = .name n) ∧ WF v ∧ WFitems d
end

end Pdf.Spec
