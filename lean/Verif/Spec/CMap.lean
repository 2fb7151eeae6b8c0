import Verif.Model.CMap
/-! Specification of character code decoding (C45). -/

namespace Pdf.Spec

/-- `HasCode d code cid`: the nested dictionaries map the code to the CID. -/
inductive HasCode : List (Nat × CTrie) → List Nat → Int → Prop
  | last {d c n} : dictGet d c = some (.cid n) → HasCode d [c] n
  | more {d c d' code n} : dictGet d c = some (.node d') → HasCode d' code n → HasCode d (c :: code) n

/-- `Reaches d pre d'`: the codes that start with `pre` continue in `d'`; `pre` alone is not a code. -/
inductive Reaches : List (Nat × CTrie) → List Nat → List (Nat × CTrie) → Prop
  | refl {d} : Reaches d [] d
  | step {d c d' pre d''} : dictGet d c = some (.node d') → Reaches d' pre d'' → Reaches d (c :: pre) d''

/-- `Splits d input cids`: reading the input from left to right, complete codes give their CIDs; a byte with which no code can go on ends the
piece being read, which is dropped together with it; an unfinished code at the end is dropped. -/
inductive Splits (d : List (Nat × CTrie)) : List Nat → List Int → Prop
  | done {pre d'} : Reaches d pre d' → Splits d pre []
  | code {code n rest cids} : HasCode d code n → Splits d rest cids → Splits d (code ++ rest) (n :: cids)
  | bad {pre d' b rest cids} : Reaches d pre d' → dictGet d' b = none → Splits d rest cids → Splits d (pre ++ b :: rest) cids

/-- A table of codes none of which is a prefix of another one (or equal to it). -/
def PrefixFree (table : List (List Nat × Int)) : Prop := table.Pairwise fun a b => ¬ a.1 <+: b.1 ∧ ¬ b.1 <+: a.1

/-- Big-endian bytes of a 16-bit number. -/
def be16 (n : Nat) : Bytes := [UInt8.ofNat (n / 256), UInt8.ofNat (n % 256)]

end Pdf.Spec
