import Verif.Model.StackParser
/-! Specification of the width arrays of CID fonts (C44): ISO 32000-1, 9.7.4.3. -/

namespace Pdf.Spec

/-- An entry of a width array: widths for consecutive CIDs starting at `c`, or one width for the CIDs from `a` to `b`. -/
inductive WidthEntry (α : Type) where
  | run (c : Int) (ws : List α)
  | range (a b : Int) (w : α)

/-- The entry gives this CID this width. -/
def WidthEntry.Assigns {α : Type} : WidthEntry α → Int → α → Prop
  | .run c ws, cid, w => ∃ i : Nat, cid = c + i ∧ ws[i]? = some w
  | .range a b w', cid, w => a ≤ cid ∧ cid ≤ b ∧ w' = w

/-- What a sequence of entries says about a CID: later entries override earlier ones. -/
inductive WidthOf {α : Type} (es : List (WidthEntry α)) (cid : Int) : Option α → Prop
  | given {before e after w} : es = before ++ e :: after → e.Assigns cid w → (∀ e' ∈ after, ∀ w', ¬ e'.Assigns cid w') →
      WidthOf es cid (some w)
  | missing : (∀ e ∈ es, ∀ w, ¬ e.Assigns cid w) → WidthOf es cid none

/-- A number. -/
def WNumber : Obj → Prop
  | .int _ => True
  | .real _ _ => True
  | _ => False

/-- The array `W`: `c [w1 ... wn]` and `c_first c_last w`. -/
inductive WArray : List Obj → List (WidthEntry Obj) → Prop
  | nil : WArray [] []
  | run {c ws l es} : WArray l es → WArray (.int c :: .arr ws :: l) (.run c ws :: es)
  | range {a b w l es} : WNumber w → WArray l es → WArray (.int a :: .int b :: w :: l) (.range a b w :: es)

/-- The list of the vertical metrics `w vx vy w vx vy ...`. -/
def metrics (ms : List (Obj × Obj × Obj)) : List Obj := ms.flatMap fun m => [m.1, m.2.1, m.2.2]

/-- The array `W2`: `c [w vx vy ...]` and `c_first c_last w vx vy`. -/
inductive W2Array : List Obj → List (WidthEntry (Obj × Obj × Obj)) → Prop
  | nil : W2Array [] []
  | run {c ms l es} : W2Array l es → W2Array (.int c :: .arr (metrics ms) :: l) (.run c ms :: es)
  | range {a b w vx vy l es} : WNumber w → WNumber vx → WNumber vy → W2Array l es →
      W2Array (.int a :: .int b :: w :: vx :: vy :: l) (.range a b (w, vx, vy) :: es)

end Pdf.Spec
