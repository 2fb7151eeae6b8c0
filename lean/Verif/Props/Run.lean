import Verif.Props.Layout
/-! What the interpreter yields (C71, C72). -/

namespace Pdf
open Pdf.Spec

/-- The operator adds to the completed items without looking at them. -/
def Adds (f : Op) : Prop := ∀ (as : List Obj) (s : St) (d : List Item), f as { s with done := d } = (f as { s with done := [] }).map fun s' => { s' with done := d ++ s'.done }

theorem showText_adds (seq : List Obj) (s : St) (d : List Item) :
    showText seq { s with done := d } = (showText seq { s with done := [] }).map fun s' => { s' with done := d ++ s'.done } := by
  simp only [showText]
  cases s.text.font with
  | none => rfl
  | some font => cases s.block with
    | none => rfl
    | some blk =>
      simp only
      generalize showSeq font s.tmatrix s.text _ _ seq = r
      cases r
      · rfl
      · simp [Except.map]

theorem paint_adds (eo : Bool) : Adds (opPaint eo) := by
  intro as s d
  simp only [opPaint]
  generalize makeCurve s.tmatrix s.graphics eo s.curves = r
  cases r <;> rfl

theorem commands_adds (R : Resolver) : ∀ e ∈ commands R, Adds e.2.2 := by
  have l : ∀ {P : (Bytes × Nat × Op) → Prop}, (∀ e ∈ commands R, P e) ↔ List.Forall P (commands R) := fun {P} => (List.forall_iff_forall_mem).symm
  rw [l]
  have z : ∀ d : List Item, d ++ [] = d := List.append_nil
  have hG : ∀ f, Adds (setG f) := by intro f as s d; simp only [setG]; split <;> simp [Except.map]
  have hT : ∀ f, Adds (setT f) := by intro f as s d; simp only [setT]; split <;> simp [Except.map]
  have hC : ∀ m, Adds (opCurve m) := by intro m as s d; simp [opCurve, Except.map]
  have hS : ∀ f, Adds (opSpace f) := by
    intro f as s b
    simp only [opSpace]
    split
    · split
      · rfl
      · split <;> simp [Except.map]
    · rfl
  have hK : ∀ n f, Adds (opColor n f) := by
    intro n f as s b
    simp only [opColor]
    split <;> simp [Except.map]
  have hR : ∀ f, Adds (opRgb f) := by
    intro f as s b
    simp only [opRgb]
    split
    · rfl
    · split <;> simp [Except.map]
  have hP := paint_adds
  have hCP : ∀ eo, Adds (opClosePaint eo) := by
    intro eo as s b
    exact paint_adds eo as { s with curves := s.curves ++ [⟨.closePath, []⟩] } b
  have hcu : ∀ f g, Adds (opCustom f g) := by
    intro f g as s b
    simp only [opCustom]
    split
    · rfl
    · split <;> simp [Except.map]
  simp only [commands, List.Forall]
  refine ⟨?_, ?_, ?_, ?_, ?_, ?_, ?_, ?_, ?_, ?_, ?_, ?_, ?_, ?_, ?_, ?_, ?_, ?_, ?_, ?_, ?_, ?_, ?_, ?_, ?_, ?_, ?_, ?_, ?_, ?_, ?_, ?_, ?_, ?_, ?_, ?_,
    ?_, ?_, ?_, ?_, ?_, ?_, ?_, ?_, ?_, ?_, ?_, ?_, ?_, ?_, ?_, ?_, ?_, ?_, ?_, ?_, ?_, ?_⟩
  all_goals first
    | exact hG _ | exact hT _ | exact hC _ | exact hS _ | exact hK _ _ | exact hR _ | exact hP _ | exact hCP _ | exact hcu _ _
    | skip
  · intro as s b; simp [opSave, Except.map]
  · intro as s b
    simp only [opRestore]
    split <;> simp [Except.map]
  · intro as s b
    simp only [opConcat, bind, Except.bind]
    cases matOf as <;> simp [Except.map]
  · intro as s b
    simp only [opDash]
    split <;> simp [Except.map]
  · intro as s b
    simp only [opRect, bind, Except.bind]
    split
    · split
      · rfl
      · split
        · rfl
        · split
          · rfl
          · split <;> simp [Except.map]
    · rfl
  · intro as s b; simp [opEndPath, Except.map]
  · intro as s b
    simp only [opBegin]
    cases s.block <;> simp [Except.map, newLine]
  · intro as s b; rfl
  · intro as s b
    simp only [opLeading]
    split
    · split <;> simp [Except.map]
    · rfl
  · intro as s b
    simp only [opFont]
    split
    · split
      · rfl
      · split <;> simp [Except.map]
    · rfl
  · intro as s b
    simp only [opMove, bind, Except.bind]
    split
    · split
      · rfl
      · split <;> simp [Except.map, newLine]
    · rfl
  · intro as s b
    simp only [opMoveLead, bind, Except.bind]
    split
    · split
      · rfl
      · split <;> simp [Except.map, newLine]
    · rfl
  · intro as s b
    simp only [opMatrix, bind, Except.bind]
    cases matOf as <;> simp [Except.map, newLine]
  · intro as s b; simp [opNextLine, nextLine, Except.map, newLine]
  · intro as s b
    simp only [opShowArray]
    split
    · split
      · rfl
      · exact showText_adds ..
      · rfl
    · rfl
  · intro as s b; exact showText_adds ..
  · intro as s b; exact showText_adds _ (nextLine s) b
  · intro as s b
    simp only [opDoubleQuote]
    split
    · exact showText_adds _ { s with text := { s.text with wordspace := _, charspace := _ } } b
    · rfl
  · intro as s b
    simp only [opImage]
    split
    · split <;> simp [Except.map]
    · simp [Except.map]
    · rfl
  · intro as s b
    simp only [opXObject]
    split
    · split
      · rfl
      · split
        · rfl
        · split
          · rfl
          · split
            · split <;> simp [Except.map]
            · split <;> simp [Except.map]
    · rfl

theorem exec_adds (R : Resolver) (s : St) (o : Obj) (d : List Item) :
    exec R { s with done := d } o = (exec R { s with done := [] } o).map fun s' => { s' with done := d ++ s'.done } := by
  cases o with
  | kw n =>
    simp only [exec]
    split
    · simp [Except.map]
    · rename_i k f hf
      have hk : Adds f := commands_adds R _ (dictGet_mem_list hf)
      split
      · exact hk _ _ _
      · split
        · exact hk _ { s with args := (popArgs k s.args).2 } _
        · rfl
  | _ => simp [exec, Except.map]

theorem execs_adds (R : Resolver) (os : List Obj) (s : St) (d : List Item) :
    execs R os { s with done := d } = (execs R os { s with done := [] }).map fun s' => { s' with done := d ++ s'.done } := by
  induction os generalizing s d with
  | nil => simp [execs, Except.map]
  | cons o os ih =>
    simp only [execs]
    rw [exec_adds]
    cases h : exec R { s with done := [] } o with
    | error e => rfl
    | ok s1 =>
      have e1 := ih s1 (d ++ s1.done)
      have e2 := ih s1 s1.done
      simp only [Except.map] at e1 e2 ⊢
      rw [e1, show execs R os s1 = execs R os { s1 with done := s1.done } from rfl, e2]
      cases execs R os { s1 with done := [] } <;> simp

/-- The item is not a form. -/
def NotForm (i : Item) : Prop := ∀ st b res m cs, i ≠ .xobj st b res m cs

theorem finish_plain (E : Env1) (nested : List Obj → St → Gen Item) (g : GState) (is : List Item) (h : ∀ i ∈ is, NotForm i) : finish E nested g is = (is, none) := by
  induction is with
  | nil => rfl
  | cons i is ih =>
    have ih := ih fun j hj => h j (List.mem_cons_of_mem _ hj)
    have hi := h i (List.mem_cons_self ..)
    cases i with
    | xobj st b res m cs => exact absurd rfl (hi st b res m cs)
    | _ => simp only [finish, ih]

/-- Without forms the interpreter yields exactly the items that its operators complete, in order; the operators act on the state one after
the other. -/
theorem run_yields (E : Env1) (nested : List Obj → St → Gen Item) (os : List Obj) (e : Option PyErr) (s s' : St) (hs : s.done = [])
    (h : execs E.R os s = .ok s') (hf : ∀ i ∈ s'.done, NotForm i) : runWith E nested os e s = ((s'.done, e), { s' with done := [] }) := by
  induction os generalizing s s' with
  | nil => cases h; simp only [runWith, hs]; cases s; cases hs; rfl
  | cons o os ih =>
    obtain ⟨s1, h1, h2⟩ := execs_ok_cons h
    rw [show s1 = { s1 with done := s1.done } from rfl, execs_adds] at h2
    cases h3 : execs E.R os { s1 with done := [] } with
    | error e => rw [h3] at h2; cases h2
    | ok s2 =>
      rw [h3] at h2
      cases h2
      have hp := finish_plain E nested s1.graphics s1.done fun i hi => hf i (List.mem_append_left _ hi)
      have hr := ih { s1 with done := [] } s2 rfl h3 fun i hi => hf i (List.mem_append_right _ hi)
      simp only [runWith, h1, hp, hr]

/-- Content in two parts: the second part starts in the state that the first one leaves. -/
theorem run_parts (E : Env1) (nested : List Obj → St → Gen Item) (p q : List Obj) (e : Option PyErr) (s s1 : St) (items : List Item)
    (h : runWith E nested p none s = ((items, none), s1)) :
    runWith E nested (p ++ q) e s = ((items ++ (runWith E nested q e s1).1.1, (runWith E nested q e s1).1.2), (runWith E nested q e s1).2) := by
  induction p generalizing s items with
  | nil => simp only [runWith] at h; cases h; rfl
  | cons o p ih =>
    simp only [List.cons_append, runWith] at h ⊢
    split at h
    · cases h
    · rename_i s2 h2
      split at h
      · cases h
      · rename_i it hit
        generalize hr : runWith E nested p none { s2 with done := [] } = r at h
        obtain ⟨⟨i1, e1⟩, s3⟩ := r
        simp only [Prod.mk.injEq] at h
        obtain ⟨⟨rfl, rfl⟩, rfl⟩ := h
        have := ih _ _ hr
        simp only [hit, this, List.append_assoc]

/-! ### C71: forms -/

/-- `Do` on a form yields one item, which contains what the content of the form yields, in order; the content is interpreted in a state of its
own, made from the resources of the form, the current matrix and the current graphics state. The state of the page is not changed. -/
theorem form_partial (E : Env1) (nested : List Obj → St → Gen Item) (n : Bytes) (os : List Obj) (e : Option PyErr) (s s0 : St) (o : Obj)
    (d res : List (Key × Obj)) (raw : Bytes) (bb x y w h m : Obj) (qx qy qw qh : ℚ) (ma : Mat) (ml : List Obj) (rs : Obj) (items : List Item) (hs : s.done = [])
    (ho : dictGet s.xobjmap (.name n) = some o) (hr : E.R.resolve1 o = .ok (.stream d raw)) (hsub : dictGet d (nm "Subtype") = some (.name (asc "Form")))
    (hb : dictGet d (nm "BBox") = some bb) (hbr : E.R.resolve1 bb = .ok (.arr [x, y, w, h]))
    (hx : x.num? = some qx) (hy : y.num? = some qy) (hw : w.num? = some qw) (hh : h.num? = some qh)
    (hm : dictGet d (nm "Matrix") = some m) (hmr : E.R.resolve1 m = .ok (.arr ml))
    (hml : ml.map Obj.num? = [some ma.a, some ma.b, some ma.c, some ma.d, some ma.e, some ma.f])
    (hres : dictGet d (nm "Resources") = some rs) (htr : rs.truthy = true) (hrr : E.R.resolve1 rs = .ok (.dict res))
    (h0 : prepState E s.tmatrix (.dict res) false = .ok s0) (hn : nested [.stream d raw] { s0 with graphics := s.graphics } = (items, none)) :
    ∃ box, runWith E nested (.name n :: operator "Do" :: os) e s =
        ((.xobj (.stream d raw) box (.dict res) s.tmatrix items :: (runWith E nested os e s).1.1, (runWith E nested os e s).1.2), (runWith E nested os e s).2) := by
  obtain ⟨hmat, _, _⟩ := matOf_of hml
  refine ⟨fromPoints [applyPt ma (qx, qy), applyPt ma (qx + qw, qy), applyPt ma (qx, qy + qh), applyPt ma (qx + qw, qy + qh)], ?_⟩
  have hform : formItem E.R d raw s.resources s.tmatrix = .ok (.xobj (.stream d raw)
      (fromPoints [applyPt ma (qx, qy), applyPt ma (qx + qw, qy), applyPt ma (qx, qy + qh), applyPt ma (qx + qw, qy + qh)]) (.dict res) s.tmatrix []) := by
    simp only [formItem, hb, Option.getD_some, Resolver.listValue, hbr, formMatrix, hm, hmr, formResources, hres, htr, if_true, Resolver.dictValue, hrr, formBbox,
      num_of hx, num_of hy, num_of hw, num_of hh, hmat, bind, Except.bind]
  have h1 : exec E.R s (.name n) = .ok { s with args := s.args ++ [.name n] } := rfl
  have hpop := popArgs_exact s.args [.name n] (by simp)
  simp only [List.length_singleton] at hpop
  have h2 : exec E.R { s with args := s.args ++ [.name n] } (operator "Do") = .ok { s with done := s.done ++ [.xobj (.stream d raw)
      (fromPoints [applyPt ma (qx, qy), applyPt ma (qx + qw, qy), applyPt ma (qx, qy + qh), applyPt ma (qx + qw, qy + qh)]) (.dict res) s.tmatrix []] } := by
    have : exec E.R { s with args := s.args ++ [.name n] } (operator "Do") =
      if (popArgs (1 : Nat) (s.args ++ [.name n])).1.length = 1 then opXObject E.R (popArgs (1 : Nat) (s.args ++ [.name n])).1 { s with args := (popArgs (1 : Nat) (s.args ++ [.name n])).2 }
      else .error .commandError := rfl
    rw [this, hpop]
    simp only [List.length_singleton, if_true, opXObject, Obj.key, ho, Resolver.streamValue, hr, hsub, hb, Option.isSome_some, and_self, hform]
  rw [runWith, h1]
  simp only [hs, finish, List.nil_append]
  rw [show ({ s with args := s.args ++ [.name n], done := [] } : St) = { s with args := s.args ++ [.name n] } by rw [← hs], runWith, h2]
  simp only [hs, List.nil_append, finish, h0, hn]
  rw [show ({ s with done := [] } : St) = s by rw [← hs]]
  rfl

/-- The matrix of a form has no effect on its content: the content is interpreted under the matrix of the page, whatever the matrix of the form
is (the parameter `ma` of `form_partial` occurs in the box only). Here a form with `Matrix [2 0 0 2 0 0]` that paints a line. -/
def demoEnv : Env1 where
  R := noRefs
  getFont _ _ := .error .keyError
  content _ := ([.int 0, .int 0, operator "m", .int 1, .int 3, operator "l", operator "S"], none)

/-- The form. -/
def demoForm : Obj := .stream [(nm "Subtype", .name (asc "Form")), (nm "BBox", .arr [.int 0, .int 0, .int 1, .int 3]),
  (nm "Matrix", .arr [.int 2, .int 0, .int 0, .int 2, .int 0, .int 0]), (nm "Resources", .dict [(nm "A", .null)])] []

/-- The boxes of the items in the forms. -/
def childBoxes (g : Gen Item) : List (List Bbox) :=
  g.1.map fun i => match i with
    | .xobj _ _ _ _ cs => cs.map fun c => match c with
      | .curve c => c.bbox
      | _ => ⟨0, 0, 0, 0⟩
    | _ => []

theorem form_counterexample :
    childBoxes (runWith demoEnv (fun st s => (run demoEnv 1 st s).1) [.name (asc "F"), operator "Do"] none { csmap := [], xobjmap := [(nm "F", demoForm)] }).1 = [[⟨0, 0, 1, 3⟩]] := by
  decide +kernel

/-! ### C72: iterating over a page again -/

/-- `PageInterpreter.__iter__` (PageInterpreter.py:39-46), iterated twice: the second iteration starts in the state that the first one left, so
that together they yield what the content repeated would yield. -/
theorem page_again (E : Env1) (fuel : Nat) (streams : List Obj) (s s1 : St) (items : List Item) (h : run E (fuel + 1) streams s = ((items, none), s1)) :
    (items ++ (run E (fuel + 1) streams s1).1.1, (run E (fuel + 1) streams s1).1.2) =
      (runWith E (fun st s => (run E fuel st s).1) ((E.content streams).1 ++ (E.content streams).1) (E.content streams).2 s).1 := by
  simp only [run] at h ⊢
  have he : (E.content streams).2 = none := by
    have key : ∀ (os : List Obj) e s items s1, runWith E (fun st s => (run E fuel st s).1) os e s = ((items, none), s1) → e = none := by
      intro os e
      induction os with
      | nil => intro s items s1 h; simp only [runWith] at h; cases h; rfl
      | cons o os ih =>
        intro s items s1 h
        simp only [runWith] at h
        split at h
        · cases h
        · split at h
          · cases h
          · rename_i s2 _ _ it _
            generalize hr : runWith E (fun st s => (run E fuel st s).1) os e { s2 with done := [] } = r at h
            obtain ⟨⟨i1, e1⟩, s3⟩ := r
            simp only [Prod.mk.injEq] at h
            obtain ⟨⟨rfl, rfl⟩, rfl⟩ := h
            exact ih _ _ _ hr
    exact key _ _ _ _ _ h
  rw [he] at h
  rw [run_parts E _ _ _ _ s s1 items h]

/-- If the content leaves the state as it was, both iterations yield the same. -/
theorem page_again_partial (E : Env1) (fuel : Nat) (streams : List Obj) (s : St) (items : List Item) (h : run E fuel streams s = ((items, none), s)) :
    (run E fuel streams (run E fuel streams s).2).1 = (items, none) := by
  rw [h]; simp only [h]

/-- The page `1 0 0 1 10 0 cm 0 0 m 1 3 l S`. -/
def shiftEnv : Env1 where
  R := noRefs
  getFont _ _ := .error .keyError
  content _ := ([.int 1, .int 0, .int 0, .int 1, .int 10, .int 0, operator "cm", .int 0, .int 0, operator "m", .int 1, .int 3, operator "l", operator "S"], none)

/-- The boxes of the curves. -/
def itemBoxes (g : Gen Item) : List Bbox := g.1.map fun i => match i with | .curve c => c.bbox | _ => ⟨0, 0, 0, 0⟩

/-- The second iteration over the same page yields the line at another place. -/
theorem page_again_counterexample : itemBoxes (run shiftEnv 1 [] { csmap := [] }).1 = [⟨10, 0, 11, 3⟩] ∧
    itemBoxes (run shiftEnv 1 [] (run shiftEnv 1 [] { csmap := [] }).2).1 = [⟨20, 0, 21, 3⟩] := by
  constructor <;> decide +kernel

end Pdf
