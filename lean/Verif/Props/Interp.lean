import Verif.Props.InterpFrame
import Verif.Props.Geometry
import Verif.Spec.Content
import Mathlib.Data.Rat.Floor
/-! Operands, saved states, matrices, colours and text lines (C34-C38). -/

namespace Pdf
open Pdf.Spec

theorem execs_append (R : Resolver) (p q : List Obj) (s : St) : execs R (p ++ q) s = match execs R p s with
    | .error e => .error e
    | .ok s => execs R q s := by
  induction p generalizing s with
  | nil => rfl
  | cons o p ih =>
    simp only [List.cons_append, execs]
    cases exec R s o with
    | error e => rfl
    | ok s => exact ih s

theorem execs_ok_append {R : Resolver} {p q : List Obj} {s s' : St} (h : execs R (p ++ q) s = .ok s') : ∃ s1, execs R p s = .ok s1 ∧ execs R q s1 = .ok s' := by
  rw [execs_append] at h
  split at h
  · cases h
  · exact ⟨_, by assumption, h⟩

theorem execs_ok_cons {R : Resolver} {o : Obj} {q : List Obj} {s s' : St} (h : execs R (o :: q) s = .ok s') : ∃ s1, exec R s o = .ok s1 ∧ execs R q s1 = .ok s' := by
  simp only [execs] at h
  split at h
  · cases h
  · exact ⟨_, by assumption, h⟩

/-! ### C35: operands -/

theorem exec_operand (R : Resolver) (s : St) (o : Obj) (h : Operand o) : exec R s o = .ok { s with args := s.args ++ [o] } := by
  cases o <;> first | rfl | exact absurd rfl (h _)

theorem execs_operands (R : Resolver) (s : St) (as : List Obj) (h : ∀ a ∈ as, Operand a) : execs R as s = .ok { s with args := s.args ++ as } := by
  induction as generalizing s with
  | nil => simp [execs]
  | cons a as ih =>
    simp only [execs, exec_operand R s a (h a (List.mem_cons_self ..))]
    rw [ih _ fun b hb => h b (List.mem_cons_of_mem _ hb)]
    simp

theorem popArgs_exact (base as : List Obj) (hne : as ≠ []) : popArgs as.length (base ++ as) = (as, base) := by
  have hl : as.length ≠ 0 := by simpa using hne
  simp only [popArgs]
  rw [if_neg (by omega), if_pos (by omega)]
  simp

/-- Every operator of the table that takes operands is applied to exactly the operands that immediately precede it, in order, whatever other
operands are waiting; those are still waiting afterwards. -/
theorem operands_exact (R : Resolver) (s : St) (as : List Obj) (n : Bytes) (f : Op) (has : ∀ a ∈ as, Operand a)
    (hf : dictGet (commands R) (methodName n) = some (as.length, f)) : execs R (as ++ [.kw n]) s = f as s := by
  rw [execs_append, execs_operands R s as has]
  simp only [execs, exec, hf]
  by_cases hne : as = []
  · subst hne
    simp
    cases f [] s <;> rfl
  · rw [if_neg (by simpa using hne), popArgs_exact _ _ hne]
    simp
    cases f as s <;> rfl

/-- An operator that the interpreter does not know changes nothing. -/
theorem unknown_operator (R : Resolver) (s : St) (n : Bytes) (h : dictGet (commands R) (methodName n) = none) : execs R [.kw n] s = .ok s := by
  simp only [execs, exec, h]

/-- With fewer operands than the operator takes, the interpreter raises `CommandProcessorError`. -/
theorem too_few (R : Resolver) (s : St) (as : List Obj) (n : Bytes) (k : Nat) (f : Op) (has : ∀ a ∈ as, Operand a)
    (hf : dictGet (commands R) (methodName n) = some (k, f)) (hk : s.args.length + as.length < k) : execs R (as ++ [.kw n]) s = .error .commandError := by
  rw [execs_append, execs_operands R s as has]
  simp only [execs, exec, hf]
  rw [if_neg (by omega), if_neg]
  simp only [popArgs]
  rw [if_neg (by omega), if_pos (by omega)]
  simp
  omega

/-- The operator neither sees nor changes the waiting operands. -/
def Blind (f : Op) : Prop := ∀ (as : List Obj) (s : St) (b : List Obj), f as { s with args := b } = (f as s).map fun s' => { s' with args := b }

theorem blind_bind {α : Type} (x : Except PyErr α) (g : α → Except PyErr St) (h : St → St) :
    (match x with | .error e => .error e | .ok a => (g a).map h) = Except.map h (match x with | .error e => .error e | .ok a => g a) := by
  cases x <;> rfl

theorem showText_blind (seq : List Obj) (s : St) (b : List Obj) :
    showText seq { s with args := b } = (showText seq s).map fun s' => { s' with args := b } := by
  simp only [showText]
  cases s.text.font with
  | none => rfl
  | some font => cases s.block with
    | none => rfl
    | some blk =>
      simp only
      generalize showSeq font s.tmatrix s.text _ _ seq = r
      cases r <;> rfl

theorem paint_blind (eo : Bool) : Blind (opPaint eo) := by
  intro as s b
  simp only [opPaint]
  generalize makeCurve s.tmatrix s.graphics eo s.curves = r
  cases r <;> rfl

/-- The operators that take their operands themselves. -/
def takers : List Bytes := [asc "SC", asc "sc", asc "SCN", asc "scn"]

theorem commands_blind (R : Resolver) : ∀ e ∈ commands R, e.1 ∉ takers → Blind e.2.2 := by
  have l : ∀ {P : (Bytes × Nat × Op) → Prop}, (∀ e ∈ commands R, P e) ↔ List.Forall P (commands R) := fun {P} => (List.forall_iff_forall_mem).symm
  rw [l]
  have hG : ∀ f, Blind (setG f) := by intro f as s b; simp only [setG]; split <;> rfl
  have hT : ∀ f, Blind (setT f) := by intro f as s b; simp only [setT]; split <;> rfl
  have hC : ∀ m, Blind (opCurve m) := by intro f as s b; rfl
  have hS : ∀ f, Blind (opSpace f) := by
    intro f as s b
    simp only [opSpace]
    split
    · split
      · rfl
      · split <;> rfl
    · rfl
  have hK : ∀ n f, Blind (opColor n f) := by
    intro n f as s b
    simp only [opColor]
    split <;> rfl
  have hR : ∀ f, Blind (opRgb f) := by
    intro f as s b
    simp only [opRgb]
    split
    · rfl
    · split <;> rfl
  have hP := paint_blind
  have hCP : ∀ eo, Blind (opClosePaint eo) := by
    intro eo as s b
    exact paint_blind eo as { s with curves := s.curves ++ [⟨.closePath, []⟩] } b
  simp only [commands, List.Forall]
  refine ⟨?_, ?_, ?_, ?_, ?_, ?_, ?_, ?_, ?_, ?_, ?_, ?_, ?_, ?_, ?_, ?_, ?_, ?_, ?_, ?_, ?_, ?_, ?_, ?_, ?_, ?_, ?_, ?_, ?_, ?_, ?_, ?_, ?_, ?_, ?_, ?_,
    ?_, ?_, ?_, ?_, ?_, ?_, ?_, ?_, ?_, ?_, ?_, ?_, ?_, ?_, ?_, ?_, ?_, ?_, ?_, ?_, ?_, ?_⟩ <;> intro hn
  all_goals first
    | exact hG _ | exact hT _ | exact hC _ | exact hS _ | exact hK _ _ | exact hR _ | exact hP _ | exact hCP _
    | exact absurd (show _ ∈ takers by decide) hn
    | skip
  · intro as s b; rfl
  · intro as s b
    simp only [opRestore]
    split <;> rfl
  · intro as s b
    simp only [opConcat, bind, Except.bind]
    cases matOf as <;> rfl
  · intro as s b
    simp only [opDash]
    split <;> rfl
  · intro as s b
    simp only [opRect, bind, Except.bind]
    split
    · split
      · rfl
      · split
        · rfl
        · split
          · rfl
          · split <;> rfl
    · rfl
  · intro as s b; rfl
  · intro as s b
    simp only [opBegin]
    cases s.block <;> rfl
  · intro as s b; rfl
  · intro as s b
    simp only [opLeading]
    split
    · split <;> rfl
    · rfl
  · intro as s b
    simp only [opFont]
    split
    · split
      · rfl
      · split <;> rfl
    · rfl
  · intro as s b
    simp only [opMove, bind, Except.bind]
    split
    · split
      · rfl
      · split <;> rfl
    · rfl
  · intro as s b
    simp only [opMoveLead, bind, Except.bind]
    split
    · split
      · rfl
      · split <;> rfl
    · rfl
  · intro as s b
    simp only [opMatrix, bind, Except.bind]
    cases matOf as <;> rfl
  · intro as s b; rfl
  · intro as s b
    simp only [opShowArray]
    split
    · split
      · rfl
      · exact showText_blind ..
      · rfl
    · rfl
  · intro as s b; exact showText_blind ..
  · intro as s b; exact showText_blind _ (nextLine s) b
  · intro as s b
    simp only [opDoubleQuote]
    split
    · exact showText_blind _ { s with text := { s.text with wordspace := _, charspace := _ } } b
    · rfl
  · intro as s b
    simp only [opImage]
    split
    · split <;> rfl
    · rfl
    · rfl
  · intro as s b
    simp only [opXObject]
    split
    · split
      · rfl
      · split
        · rfl
        · split
          · rfl
          · split
            · split <;> rfl
            · split <;> rfl
    · rfl

/-- Programs in which every operator has its operands directly before it; unknown operators may have any operands. The colour operators `SC`,
`sc`, `SCN` and `scn` are treated in `custom_colour`. -/
inductive Complete (R : Resolver) : List Obj → Prop where
  | nil : Complete R []
  | known {as p : List Obj} {n : Bytes} {f : Op} (has : ∀ a ∈ as, Operand a) (hf : dictGet (commands R) (methodName n) = some (as.length, f))
      (hn : methodName n ∉ takers) (h : Complete R p) : Complete R (as ++ .kw n :: p)
  | unknown {as p : List Obj} {n : Bytes} (has : ∀ a ∈ as, Operand a) (hf : dictGet (commands R) (methodName n) = none) (h : Complete R p) :
      Complete R (as ++ .kw n :: p)

theorem execs_snoc (R : Resolver) (as p : List Obj) (o : Obj) (s : St) : execs R (as ++ o :: p) s = match execs R (as ++ [o]) s with
    | .error e => .error e
    | .ok s => execs R p s := by
  rw [← execs_append, List.append_assoc]; rfl

/-- Operands left behind by earlier (unknown) operators influence nothing in the sequel but the operands that are left. -/
theorem leftovers_harmless (R : Resolver) (p : List Obj) (hp : Complete R p) (s : St) (b : List Obj) :
    (execs R p { s with args := b }).map (fun s' => { s' with args := [] }) = (execs R p s).map (fun s' => { s' with args := [] }) := by
  induction hp generalizing s b with
  | nil => rfl
  | @known as p n f has hf hn h ih =>
    have hb : Blind f := commands_blind R _ (dictGet_mem_list hf) hn
    rw [execs_snoc, execs_snoc R as p (.kw n) s, operands_exact R _ as n f has hf, operands_exact R _ as n f has hf, hb as s b]
    cases f as s with
    | error e => rfl
    | ok s1 => exact ih s1 b
  | @unknown as p n has hf h ih =>
    rw [execs_snoc, execs_snoc R as p (.kw n) s, execs_append, execs_append R as, execs_operands R _ as has, execs_operands R _ as has]
    simp only [unknown_operator R _ n hf]
    rw [ih { s with args := s.args ++ as } (b ++ as)]

/-- `5 foo w`: the operand of an unknown operator becomes the operand of an operator that has none of its own. -/
theorem too_few_counterexample (R : Resolver) (s : St) :
    execs R [.int 5, operator "foo", operator "w"] s = .ok { s with graphics := { s.graphics with linewidth := .int 5 } } := by
  have h1 : dictGet (commands R) (methodName (asc "foo")) = none := rfl
  have h2 : dictGet (commands R) (methodName (asc "w")) = some (1, setG fun g x => { g with linewidth := x }) := rfl
  have : operator "foo" = .kw (asc "foo") := rfl
  have : operator "w" = .kw (asc "w") := rfl
  simp only [execs, exec, *]
  rw [if_neg (by decide)]
  have := popArgs_exact s.args [.int 5] (by simp)
  simp only [List.length_singleton, Nat.cast_one] at this
  simp [this, setG]

/-! ### C34: saved states -/

theorem exec_gstack (R : Resolver) (s s' : St) (o : Obj) (hq : o ≠ operator "q") (hQ : o ≠ operator "Q") (h : exec R s o = .ok s') : s'.gstack = s.gstack := by
  cases o with
  | kw n =>
    simp only [exec] at h
    split at h
    · cases h; rfl
    · rename_i k f hf
      have hk : OpKeeps f St.gstack := by
        refine commands_gstack R _ (dictGet_mem_list hf) (fun e => hq ?_) fun e => hQ ?_
        · exact congrArg _ (methodName_simple n (asc "q") (by decide) e)
        · exact congrArg _ (methodName_simple n (asc "Q") (by decide) e)
      split at h
      · exact hk _ _ _ h
      · split at h
        · exact hk _ { s with args := (popArgs k s.args).2 } _ h
        · cases h
  | _ => cases h; rfl

theorem exec_save (R : Resolver) (s : St) : exec R s (operator "q") = .ok { s with gstack := (s.tmatrix, s.text, s.graphics) :: s.gstack } := rfl

theorem exec_restore (R : Resolver) (s : St) : exec R s (operator "Q") = opRestore [] s := rfl

theorem balanced_gstack (R : Resolver) (p : List Obj) (hp : Balanced p) (s s' : St) (h : execs R p s = .ok s') : s'.gstack = s.gstack := by
  induction hp generalizing s s' with
  | nil => cases h; rfl
  | other hq hQ _ ih =>
    obtain ⟨s1, h1, h2⟩ := execs_ok_cons h
    rw [ih _ _ h2, exec_gstack R _ _ _ hq hQ h1]
  | group _ _ ihp ihr =>
    rw [List.cons_append] at h
    obtain ⟨s1, h1, h2⟩ := execs_ok_cons h
    rw [exec_save] at h1
    cases h1
    obtain ⟨s2, h3, h4⟩ := execs_ok_append h2
    obtain ⟨s3, h5, h6⟩ := execs_ok_cons h4
    have e := ihp _ _ h3
    rw [ihr _ _ h6]
    simp only [exec_restore, opRestore, e] at h5
    cases h5
    rfl

/-- `q ... Q` restores the current matrix and the text parameters, for any balanced operators in between. What is missing: the colours and
line parameters (see `restore_graphics` and `restore_counterexample`). -/
theorem save_restore_partial (R : Resolver) (p : List Obj) (hp : Balanced p) (s s' : St) (h : execs R (operator "q" :: p ++ [operator "Q"]) s = .ok s') :
    s'.tmatrix = s.tmatrix ∧ s'.text = s.text ∧ s'.gstack = s.gstack := by
  rw [List.cons_append] at h
  obtain ⟨s1, h1, h2⟩ := execs_ok_cons h
  rw [exec_save] at h1
  cases h1
  obtain ⟨s2, h3, h4⟩ := execs_ok_append h2
  obtain ⟨s3, h5, h6⟩ := execs_ok_cons h4
  have e := balanced_gstack R p hp _ _ h3
  simp only [exec_restore, opRestore, e] at h5
  cases h5
  cases h6
  exact ⟨rfl, rfl, rfl⟩

/-- `Q` leaves the colours and line parameters as they are, whatever was saved. -/
theorem restore_graphics (R : Resolver) (s s' : St) (h : execs R [operator "Q"] s = .ok s') : s'.graphics = s.graphics := by
  obtain ⟨s1, h1, h2⟩ := execs_ok_cons h
  cases h2
  simp only [exec_restore, opRestore] at h1
  split at h1 <;> cases h1 <;> rfl

/-- An unbalanced `Q` does nothing. -/
theorem restore_empty (R : Resolver) (s : St) (h : s.gstack = []) : execs R [operator "Q"] s = .ok s := by
  simp only [execs, exec_restore, opRestore, h]

/-- `q 5 w Q`: the line width stays 5. -/
theorem restore_counterexample (R : Resolver) (s : St) : ∃ s', execs R [operator "q", .int 5, operator "w", operator "Q"] s = .ok s' ∧ s'.graphics.linewidth = .int 5 := by
  refine ⟨{ s with graphics := { s.graphics with linewidth := .int 5 } }, ?_, rfl⟩
  have h2 := operands_exact R { s with gstack := (s.tmatrix, s.text, s.graphics) :: s.gstack } [.int 5] (asc "w") (setG fun g x => { g with linewidth := x })
    (by intro a ha n; simp at ha; simp [ha]) rfl
  rw [show [operator "q", Obj.int 5, operator "w", operator "Q"] = [operator "q"] ++ (([Obj.int 5] ++ [.kw (asc "w")]) ++ [operator "Q"]) from rfl, execs_append]
  simp only [execs, exec_save]
  rw [execs_append, h2]
  rfl

example : Balanced [operator "q", .int 5, operator "w", operator "q", operator "Q", operator "Q"] :=
  .group (p := [.int 5, operator "w", operator "q", operator "Q"]) (r := []) (.other (by simp [operator]) (by simp [operator]) (.other (by decide) (by decide)
    (.group (p := []) (r := []) .nil .nil))) .nil

/-! ### C36: chains of `cm` -/

theorem num?_operand {o : Obj} {q : ℚ} (h : o.num? = some q) : Operand o := by
  rintro n rfl
  cases h

theorem num_of {o : Obj} {q : ℚ} (h : o.num? = some q) : o.num = .ok q := by simp only [Obj.num, h]

theorem matOf_of {as : List Obj} {m : Mat} (h : as.map Obj.num? = [some m.a, some m.b, some m.c, some m.d, some m.e, some m.f]) :
    matOf as = .ok m ∧ as.length = 6 ∧ ∀ a ∈ as, Operand a := by
  have hl : as.length = 6 := by simpa using congrArg List.length h
  match as, hl with
  | [a, b, c, d, e, f], _ =>
    simp only [List.map_cons, List.map_nil, List.cons.injEq, and_true] at h
    obtain ⟨ha, hb, hc, hd, he, hf⟩ := h
    refine ⟨?_, rfl, ?_⟩
    · simp only [matOf, num_of ha, num_of hb, num_of hc, num_of hd, num_of he, num_of hf, bind, Except.bind]
    · intro x hx
      simp only [List.mem_cons, List.not_mem_nil, or_false] at hx
      rcases hx with rfl | rfl | rfl | rfl | rfl | rfl <;> exact num?_operand (by assumption)

/-- A sequence of `cm` operators: a point is mapped by the last matrix first and by the matrix at the beginning last; nothing else changes. -/
theorem cm_chain (R : Resolver) (ms : List (List Obj × Mat))
    (h : ∀ m ∈ ms, m.1.map Obj.num? = [some m.2.a, some m.2.b, some m.2.c, some m.2.d, some m.2.e, some m.2.f]) (s : St) :
    ∃ t, execs R (ms.flatMap fun m => m.1 ++ [operator "cm"]) s = .ok { s with tmatrix := t } ∧
      ∀ v, applyPt t v = applyPt s.tmatrix (ms.foldr (fun m w => applyPt m.2 w) v) := by
  induction ms generalizing s with
  | nil => exact ⟨s.tmatrix, rfl, fun _ => rfl⟩
  | cons m ms ih =>
    obtain ⟨h1, h2, h3⟩ := matOf_of (h m (List.mem_cons_self ..))
    obtain ⟨t, ht, hv⟩ := ih (fun x hx => h x (List.mem_cons_of_mem _ hx)) { s with tmatrix := multMatrix m.2 s.tmatrix }
    refine ⟨t, ?_, ?_⟩
    · have := operands_exact R s m.1 (asc "cm") opConcat h3 (by rw [h2]; rfl)
      rw [List.flatMap_cons, execs_append, show m.1 ++ [operator "cm"] = m.1 ++ [.kw (asc "cm")] from rfl, this]
      simp only [opConcat, h1, bind, Except.bind]
      exact ht
    · intro v
      rw [hv, mult_apply]
      rfl

example : ∃ ms : List (List Obj × Mat), ms.length = 2 ∧
    ∀ m ∈ ms, m.1.map Obj.num? = [some m.2.a, some m.2.b, some m.2.c, some m.2.d, some m.2.e, some m.2.f] :=
  ⟨[([.int 2, .int 0, .int 0, .int 2, .int 5, .int 7], ⟨2, 0, 0, 2, 5, 7⟩), ([.int 0, .int 1, .int (-1), .int 0, .int 0, .int 0], ⟨0, 1, -1, 0, 0, 0⟩)], rfl, by
    simp [Obj.num?]⟩

/-! ### C37: colours -/

/-- The known operator applied to its operands. -/
theorem exec_op (R : Resolver) (s : St) (as : List Obj) (n : String) (f : Op) (has : ∀ a ∈ as, Operand a)
    (hf : dictGet (commands R) (methodName (asc n)) = some (as.length, f)) : execs R (as ++ [operator n]) s = f as s :=
  operands_exact R s as (asc n) f has hf

/-- `g` sets the fill colour and nothing else, `G` and `K` the stroke colour and nothing else; the components are stored as they are given. -/
theorem gray_cmyk_partial (R : Resolver) (s : St) (gray cmyk : ColorSpace) (hg : dictGet s.csmap (nm "DeviceGray") = some (some gray))
    (hk : dictGet s.csmap (nm "DeviceCMYK") = some (some cmyk)) (w c m y k : Obj) (hw : Operand w) (hc : Operand c) (hm : Operand m) (hy : Operand y)
    (hk' : Operand k) :
    execs R [w, operator "g"] s = .ok { s with graphics := { s.graphics with ncolor := ⟨some gray, [w]⟩ } } ∧
    execs R [w, operator "G"] s = .ok { s with graphics := { s.graphics with scolor := ⟨some gray, [w]⟩ } } ∧
    execs R [c, m, y, k, operator "K"] s = .ok { s with graphics := { s.graphics with scolor := ⟨some cmyk, [c, m, y, k]⟩ } } := by
  have h1 : ∀ a ∈ [w], Operand a := by simpa
  have h4 : ∀ a ∈ [c, m, y, k], Operand a := by simp [hc, hm, hy, hk']
  refine ⟨(exec_op R s [w] "g" _ h1 rfl).trans ?_, (exec_op R s [w] "G" _ h1 rfl).trans ?_, (exec_op R s [c, m, y, k] "K" _ h4 rfl).trans ?_⟩
  · simp only [opColor, hg, setFill]
  · simp only [opColor, hg, setStroke]
  · simp only [opColor, hk, setStroke]

/-- `k`, which should set the fill colour, sets the stroke colour. -/
theorem cmyk_counterexample (R : Resolver) (s : St) (cmyk : ColorSpace) (h : dictGet s.csmap (nm "DeviceCMYK") = some (some cmyk)) (c m y k : Obj)
    (hc : Operand c) (hm : Operand m) (hy : Operand y) (hk : Operand k) :
    execs R [c, m, y, k, operator "k"] s = .ok { s with graphics := { s.graphics with scolor := ⟨some cmyk, [c, m, y, k]⟩ } } := by
  refine (exec_op R s [c, m, y, k] "k" _ (by simp [hc, hm, hy, hk]) rfl).trans ?_
  simp only [opColor, h, setStroke]

/-- `v` is an integer nearest to `q`. -/
def Nearest (q : ℚ) (v : Int) : Prop := |q - v| ≤ 1 / 2

theorem pyRound_nearest (q : ℚ) : Nearest q (pyRound q) := by
  have h1 : (⌊q⌋ : ℚ) ≤ q := Int.floor_le q
  have h2 : q < ⌊q⌋ + 1 := Int.lt_floor_add_one q
  have hf : q.floor = ⌊q⌋ := rfl
  simp only [Nearest, pyRound, hf]
  rw [abs_le]
  split
  · constructor <;> linarith
  · split
    · push_cast
      constructor <;> linarith
    · split
      · constructor <;> linarith
      · push_cast
        constructor <;> linarith

/-- `rg` sets the fill colour and nothing else, `RG` the stroke colour and nothing else; the components are stored in order, as the nearest
integers to 255 times the operands. -/
theorem rgb (R : Resolver) (s : St) (rgb : ColorSpace) (h : dictGet s.csmap (nm "DeviceRGB") = some (some rgb)) (r g b : Obj) (x y z : ℚ)
    (hr : r.num? = some x) (hg : g.num? = some y) (hb : b.num? = some z) :
    ∃ i j k : Int, Nearest (x * 255) i ∧ Nearest (y * 255) j ∧ Nearest (z * 255) k ∧
      execs R [r, g, b, operator "rg"] s = .ok { s with graphics := { s.graphics with ncolor := ⟨some rgb, [.int i, .int j, .int k]⟩ } } ∧
      execs R [r, g, b, operator "RG"] s = .ok { s with graphics := { s.graphics with scolor := ⟨some rgb, [.int i, .int j, .int k]⟩ } } := by
  have h3 : ∀ a ∈ [r, g, b], Operand a := by simp [num?_operand hr, num?_operand hg, num?_operand hb]
  refine ⟨_, _, _, pyRound_nearest _, pyRound_nearest _, pyRound_nearest _, (exec_op R s [r, g, b] "rg" _ h3 rfl).trans ?_,
    (exec_op R s [r, g, b] "RG" _ h3 rfl).trans ?_⟩
  · simp only [opRgb, h, bytesOfColor, num_of hr, num_of hg, num_of hb, setFill]
  · simp only [opRgb, h, bytesOfColor, num_of hr, num_of hg, num_of hb, setStroke]

/-- `sc` and `scn` set the fill colour and nothing else, `SC` and `SCN` the stroke colour and nothing else: they consume exactly as many
operands as the colour space has components, the ones directly before the operator. -/
theorem custom_colour (R : Resolver) (s : St) (as : List Obj) (has : ∀ a ∈ as, Operand a) (cs : ColorSpace) (hn : cs.ncomponents = .int as.length) :
    (s.graphics.ncolspace = some cs → ∀ op ∈ ["sc", "scn"],
      execs R (as ++ [operator op]) s = .ok { s with graphics := { s.graphics with ncolor := ⟨some cs, as⟩ } }) ∧
    (s.graphics.scolspace = some cs → ∀ op ∈ ["SC", "SCN"],
      execs R (as ++ [operator op]) s = .ok { s with graphics := { s.graphics with scolor := ⟨some cs, as⟩ } }) := by
  have hp : popArgs as.length (s.args ++ as) = (as, s.args) := by
    by_cases hne : as = []
    · subst hne; simp [popArgs]
    · exact popArgs_exact _ _ hne
  constructor
  · intro h op hop
    rw [execs_append, execs_operands R s as has]
    simp only [List.mem_cons, List.not_mem_nil, or_false] at hop
    have e : exec R { s with args := s.args ++ as } (operator op) = opCustom GState.ncolspace setFill [] { s with args := s.args ++ as } := by
      rcases hop with rfl | rfl <;> rfl
    simp only [execs, e, opCustom, h, hn, hp, setFill]
  · intro h op hop
    rw [execs_append, execs_operands R s as has]
    simp only [List.mem_cons, List.not_mem_nil, or_false] at hop
    have e : exec R { s with args := s.args ++ as } (operator op) = opCustom GState.scolspace setStroke [] { s with args := s.args ++ as } := by
      rcases hop with rfl | rfl <;> rfl
    simp only [execs, e, opCustom, h, hn, hp, setStroke]

/-- `CS` and `cs` select the colour space for stroking and for filling, and nothing else. -/
theorem select_space (R : Resolver) (s : St) (n : Bytes) (c : Option ColorSpace) (h : dictGet s.csmap (.name n) = some c) :
    execs R [.name n, operator "CS"] s = .ok { s with graphics := { s.graphics with scolspace := c } } ∧
    execs R [.name n, operator "cs"] s = .ok { s with graphics := { s.graphics with ncolspace := c } } := by
  have h1 : ∀ a ∈ [Obj.name n], Operand a := by simp [Operand]
  refine ⟨(exec_op R s [.name n] "CS" _ h1 rfl).trans ?_, (exec_op R s [.name n] "cs" _ h1 rfl).trans ?_⟩ <;>
    simp only [opSpace, Obj.key, h]

/-- The colour spaces without which the operators fail are there from the start. -/
example : dictGet predefinedSpaces (nm "DeviceGray") = some (some ⟨asc "DeviceGray", .int 1⟩) ∧
    dictGet predefinedSpaces (nm "DeviceRGB") = some (some ⟨asc "DeviceRGB", .int 3⟩) ∧
    dictGet predefinedSpaces (nm "DeviceCMYK") = some (some ⟨asc "DeviceCMYK", .int 4⟩) := ⟨rfl, rfl, rfl⟩

end Pdf
