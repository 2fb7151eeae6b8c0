/-! Specifications for the list utilities and the symbol table (C56, C57). -/

namespace Pdf.Spec

/-- The items of `l` that do not occur earlier in `l`, in order. -/
def firstOccurrences {α : Type} [DecidableEq α] (l : List α) : List α :=
  ((List.range l.length).filterMap fun i => l[i]?.bind fun x => if x ∈ l.take i then none else some x)

/-- `r` is what a stable sort of `l` by `key` returns: the same items, ordered by key, and those with the same key in the order
they had in `l`. -/
structure StableSort {α κ : Type} [LE κ] [DecidableEq κ] (l : List α) (key : α → κ) (r : List α) : Prop where
  same_items : r.Perm l
  ordered : r.Pairwise fun a b => key a ≤ key b
  order_kept : ∀ k, (r.filter fun x => decide (key x = k)) = l.filter fun x => decide (key x = k)

end Pdf.Spec
