import Verif.Spec.Pages
/-! Outlines (ISO 32000-1, 12.3.3) and name trees (7.9.6), independent of the code that walks them. -/

namespace Pdf.Spec
open Pdf

/-- An outline item: its dictionary and the items below it. -/
inductive OutlineNode where
  | mk (attrs : Dict) (children : List OutlineNode)

mutual
/-- The items in the order of the document (an item before those below it), each with its depth. -/
def OutlineNode.preorder (level : Nat) : OutlineNode → List (Nat × Dict)
  | .mk d cs => (level, d) :: preorderAll (level + 1) cs
def preorderAll (level : Nat) : List OutlineNode → List (Nat × Dict)
  | [] => []
  | t :: ts => t.preorder level ++ preorderAll level ts
end

mutual
/-- The dictionary has the items below it: none, or a chain that begins with `First`. -/
inductive HasItems (R : Resolver) : Dict → List OutlineNode → Prop
  | none {d} : dictGet d (.name (asc "First")) = none ∨ dictGet d (.name (asc "Last")) = none → HasItems R d []
  | some {d f l ts} : dictGet d (.name (asc "First")) = some f → dictGet d (.name (asc "Last")) = some l → ItemChain R f ts → HasItems R d ts
/-- The object is an item, followed by the items that `Next` leads to. -/
inductive ItemChain (R : Resolver) : Obj → List OutlineNode → Prop
  | last {o d cs} : R.resolve1 o = .ok (.dict d) → HasItems R d cs → dictGet d (.name (asc "Next")) = Option.none → ItemChain R o [.mk d cs]
  | next {o d cs n ts} : R.resolve1 o = .ok (.dict d) → HasItems R d cs → dictGet d (.name (asc "Next")) = Option.some n → ItemChain R n ts →
      ItemChain R o (.mk d cs :: ts)
end

/-- An item that leads somewhere: it has a title and a destination or an action. -/
def Linked (d : Dict) : Prop :=
  dictGet d (.name (asc "Title")) ≠ none ∧ (dictGet d (.name (asc "A")) ≠ none ∨ dictGet d (.name (asc "Dest")) ≠ none)
instance (d : Dict) : Decidable (Linked d) := inferInstanceAs (Decidable (_ ∧ _))

/-- A name tree: leaves with names and values, and inner nodes. Each node may have limits. -/
inductive NameTree where
  | leaf (limits : Option (Bytes × Bytes)) (entries : List (Bytes × Obj))
  | node (limits : Option (Bytes × Bytes)) (kids : List NameTree)

def NameTree.limits : NameTree → Option (Bytes × Bytes)
  | .leaf l _ => l
  | .node l _ => l

mutual
/-- All names of the tree with their values. -/
def NameTree.entries : NameTree → List (Bytes × Obj)
  | .leaf _ es => es
  | .node _ kids => entriesAll kids
def entriesAll : List NameTree → List (Bytes × Obj)
  | [] => []
  | t :: ts => t.entries ++ entriesAll ts
end

/-- The name lies within the limits. Names are compared as byte strings. -/
def Within (k : Bytes) : Option (Bytes × Bytes) → Prop
  | none => True
  | some (lo, hi) => ¬ k < lo ∧ ¬ hi < k

/-- No name lies within both limits. -/
def Disjoint (a b : Option (Bytes × Bytes)) : Prop := ∀ k, ¬ (Within k a ∧ Within k b)

mutual
/-- Limits are consistent: the names of a node lie within its limits, and the limits of the children of a node do not overlap. No leaf has
a name twice. -/
inductive NameTree.Consistent : NameTree → Prop
  | leaf {lim es} : (∀ e ∈ es, Within e.1 lim) → (es.map Prod.fst).Nodup → NameTree.Consistent (.leaf lim es)
  | node {lim kids} : (∀ e ∈ entriesAll kids, Within e.1 lim) → AllConsistent kids → NameTree.Consistent (.node lim kids)
inductive AllConsistent : List NameTree → Prop
  | nil : AllConsistent []
  | cons {t ts} : t.Consistent → t.limits ≠ none → (∀ s ∈ ts, Disjoint t.limits s.limits) → AllConsistent ts → AllConsistent (t :: ts)
end

/-- The node has the limits. -/
def HasLimits (R : Resolver) (d : Dict) : Option (Bytes × Bytes) → Prop
  | none => dictGet d (.name (asc "Limits")) = none
  | some (lo, hi) => ∃ o, dictGet d (.name (asc "Limits")) = some o ∧ R.resolve1 o = .ok (.arr [.str lo, .str hi])

mutual
/-- The dictionary is the name tree. -/
inductive IsNames (R : Resolver) : Dict → NameTree → Prop
  | leaf {d lim es o} : HasLimits R d lim → dictGet d (.name (asc "Names")) = some o →
      R.resolve1 o = .ok (.arr (es.flatMap fun e => [.str e.1, e.2])) → IsNames R d (.leaf lim es)
  | node {d lim kids o l} : HasLimits R d lim → dictGet d (.name (asc "Names")) = none → dictGet d (.name (asc "Kids")) = some o →
      R.resolve1 o = .ok (.arr l) → AreNames R l kids → IsNames R d (.node lim kids)
inductive AreNames (R : Resolver) : List Obj → List NameTree → Prop
  | nil : AreNames R [] []
  | cons {o d t os ts} : R.resolve1 o = .ok (.dict d) → IsNames R d t → AreNames R os ts → AreNames R (o :: os) (t :: ts)
end

/-- A value that destinations have: a reference, or an array or dictionary that is not empty. -/
inductive Destination : Obj → Prop
  | ref (i g) : Destination (.ref i g)
  | arr (o l) : Destination (.arr (o :: l))
  | dict (e d) : Destination (.dict (e :: d))

end Pdf.Spec
