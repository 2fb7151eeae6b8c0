import Verif.Model.StackParser
import Verif.Spec.Png
/-! What a cross-reference stream says (ISO 32000, 7.5.8). -/

namespace Pdf.Spec
open Pdf (Bytes)

/-- The three fields of an entry. -/
structure XRow where
  f1 : Bytes
  f2 : Bytes
  f3 : Bytes

def XRow.bytes (r : XRow) : Bytes := r.f1 ++ r.f2 ++ r.f3

/-- The fields have the widths of the entry `W`. -/
def XRow.Fits (w1 w2 w3 : Nat) (r : XRow) : Prop := r.f1.length = w1 ∧ r.f2.length = w2 ∧ r.f3.length = w3

/-- The numbers of the objects described by the successive entries: the ranges `first count` of the entry `Index`. -/
def objNums : List (Nat × Nat) → List Nat
  | [] => []
  | (first, count) :: r => List.range' first count ++ objNums r

/-- Where an object is. -/
inductive Place where
  | free
  | offset (pos gen : Nat)
  | inStream (objstm index : Nat)
  | unknown
deriving DecidableEq

/-- The type of an entry; a missing type field means 1. -/
def XRow.kind (r : XRow) : Nat := if r.f1 = [] then 1 else beValue r.f1

def XRow.place (r : XRow) : Place :=
  if r.kind = 0 then .free
  else if r.kind = 1 then .offset (beValue r.f2) (beValue r.f3)
  else if r.kind = 2 then .inStream (beValue r.f2) (beValue r.f3)
  else .unknown

end Pdf.Spec
