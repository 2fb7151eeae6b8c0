import Verif.Model.Interp
import Mathlib.Data.List.Basic
/-! What the operators leave alone. -/

namespace Pdf

/-- The operator leaves this part of the state as it is. -/
def OpKeeps {α : Type} (f : Op) (proj : St → α) : Prop := ∀ args s s', f args s = .ok s' → proj s' = proj s

theorem showText_keeps {α : Type} {proj : St → α} (hp : ∀ (s : St) b l, proj { s with block := b, lines := l } = proj s) {seq : List Obj} {s s' : St}
    (h : showText seq s = .ok s') : proj s' = proj s := by
  unfold showText at h
  split at h
  · cases h
  · cases h
  · split at h
    · cases h
    · cases h; exact hp ..

theorem methodName_simple (n m : Bytes) (hm : ∀ c ∈ m, c ≠ 95) (h : methodName n = m) : n = m := by
  have key : ∀ c ∈ n, (c ≠ 42 ∧ c ≠ 34 ∧ c ≠ 39) := by
    intro c hc
    refine ⟨?_, ?_, ?_⟩ <;> rintro rfl <;> refine hm 95 ?_ rfl <;> rw [← h, methodName, List.mem_flatMap] <;> exact ⟨_, hc, by decide⟩
  rw [← h]
  clear h
  induction n with
  | nil => rfl
  | cons c n ih =>
    have hc := key c (List.mem_cons_self ..)
    rw [methodName, List.flatMap_cons, if_neg hc.1, if_neg hc.2.1, if_neg hc.2.2]
    change c :: n = c :: methodName n
    rw [← ih (fun d hd => key d (List.mem_cons_of_mem _ hd))]

section
variable {α : Type} {proj : St → α}

theorem keeps_concat (hp : ∀ (s : St) m, proj { s with tmatrix := m } = proj s) : OpKeeps opConcat proj := by
  intro args s s' h
  simp only [opConcat, bind, Except.bind] at h
  split at h <;> cases h
  exact hp ..

theorem keeps_setG (hp : ∀ (s : St) g, proj { s with graphics := g } = proj s) (f) : OpKeeps (setG f) proj := by
  intro args s s' h
  simp only [setG] at h
  split at h <;> cases h
  exact hp ..

theorem keeps_dash (hp : ∀ (s : St) g, proj { s with graphics := g } = proj s) : OpKeeps opDash proj := by
  intro args s s' h
  simp only [opDash] at h
  split at h <;> cases h
  exact hp ..

theorem keeps_space (hp : ∀ (s : St) g, proj { s with graphics := g } = proj s) (f) : OpKeeps (opSpace f) proj := by
  intro args s s' h
  simp only [opSpace] at h
  split at h
  · split at h
    · cases h
    · split at h <;> cases h
      exact hp ..
  · cases h

theorem keeps_color (hp : ∀ (s : St) g, proj { s with graphics := g } = proj s) (sp f) : OpKeeps (opColor sp f) proj := by
  intro args s s' h
  simp only [opColor] at h
  split at h <;> cases h
  exact hp ..

theorem keeps_rgb (hp : ∀ (s : St) g, proj { s with graphics := g } = proj s) (f) : OpKeeps (opRgb f) proj := by
  intro args s s' h
  simp only [opRgb] at h
  split at h
  · cases h
  · split at h <;> cases h
    exact hp ..

theorem keeps_custom (hp : ∀ (s : St) a g, proj { s with args := a, graphics := g } = proj s) (f g) : OpKeeps (opCustom f g) proj := by
  intro args s s' h
  simp only [opCustom] at h
  split at h
  · cases h
  · split at h <;> cases h <;> exact hp ..

theorem keeps_curve (hp : ∀ (s : St) c, proj { s with curves := c } = proj s) (m) : OpKeeps (opCurve m) proj := by
  intro args s s' h
  simp only [opCurve] at h
  cases h
  exact hp ..

theorem keeps_rect (hp : ∀ (s : St) c, proj { s with curves := c } = proj s) : OpKeeps opRect proj := by
  intro args s s' h
  simp only [opRect, bind, Except.bind] at h
  split at h
  · split at h
    · cases h
    · split at h
      · cases h
      · split at h
        · cases h
        · split at h <;> cases h
          exact hp ..
  · cases h

theorem keeps_endPath (hp : ∀ (s : St) c, proj { s with curves := c } = proj s) : OpKeeps opEndPath proj := by
  intro args s s' h
  simp only [opEndPath] at h
  cases h
  exact hp ..

theorem keeps_paint (hp : ∀ (s : St) d c, proj { s with done := d, curves := c } = proj s) (eo) : OpKeeps (opPaint eo) proj := by
  intro args s s' h
  simp only [opPaint] at h
  split at h <;> cases h
  exact hp ..

theorem keeps_closePaint (hp : ∀ (s : St) d c, proj { s with done := d, curves := c } = proj s) (eo) : OpKeeps (opClosePaint eo) proj := by
  intro args s s' h
  simp only [opClosePaint] at h
  rw [keeps_paint hp eo _ _ _ h]
  exact hp s s.done _

theorem keeps_begin (hp : ∀ (s : St) t l b, proj { s with text := t, lines := l, block := b } = proj s) : OpKeeps opBegin proj := by
  intro args s s' h
  simp only [opBegin] at h
  split at h <;> cases h
  exact hp s _ _ _

theorem keeps_end (hp : ∀ (s : St) d b, proj { s with done := d, block := b } = proj s) : OpKeeps opEnd proj := by
  intro args s s' h
  simp only [opEnd] at h
  cases h
  exact hp ..

theorem keeps_setT (hp : ∀ (s : St) t, proj { s with text := t } = proj s) (f) : OpKeeps (setT f) proj := by
  intro args s s' h
  simp only [setT] at h
  split at h <;> cases h
  exact hp ..

theorem keeps_leading (hp : ∀ (s : St) t, proj { s with text := t } = proj s) : OpKeeps opLeading proj := by
  intro args s s' h
  simp only [opLeading] at h
  split at h
  · split at h <;> cases h
    exact hp ..
  · cases h

theorem keeps_font (hp : ∀ (s : St) t, proj { s with text := t } = proj s) : OpKeeps opFont proj := by
  intro args s s' h
  simp only [opFont] at h
  split at h
  · split at h
    · cases h
    · split at h <;> cases h
      exact hp ..
  · cases h

theorem keeps_move (hp : ∀ (s : St) t l, proj { s with text := t, lines := l } = proj s) : OpKeeps opMove proj := by
  intro args s s' h
  simp only [opMove, bind, Except.bind] at h
  split at h
  · split at h
    · cases h
    · split at h <;> cases h
      exact hp ..
  · cases h

theorem keeps_moveLead (hp : ∀ (s : St) t l, proj { s with text := t, lines := l } = proj s) : OpKeeps opMoveLead proj := by
  intro args s s' h
  simp only [opMoveLead, bind, Except.bind] at h
  split at h
  · split at h
    · cases h
    · split at h <;> cases h
      exact hp ..
  · cases h

theorem keeps_matrix (hp : ∀ (s : St) t l, proj { s with text := t, lines := l } = proj s) : OpKeeps opMatrix proj := by
  intro args s s' h
  simp only [opMatrix, bind, Except.bind] at h
  split at h <;> cases h
  exact hp ..

theorem keeps_nextLine (hp : ∀ (s : St) t l, proj { s with text := t, lines := l } = proj s) : OpKeeps opNextLine proj := by
  intro args s s' h
  simp only [opNextLine] at h
  cases h
  exact hp ..

theorem keeps_showArray (hp : ∀ (s : St) b l, proj { s with block := b, lines := l } = proj s) : OpKeeps opShowArray proj := by
  intro args s s' h
  simp only [opShowArray] at h
  split at h
  · split at h
    · cases h
    · exact showText_keeps hp h
    · cases h
  · cases h

theorem keeps_show (hp : ∀ (s : St) b l, proj { s with block := b, lines := l } = proj s) : OpKeeps opShow proj := by
  intro args s s' h
  exact showText_keeps hp h

theorem keeps_quote (hp : ∀ (s : St) t b l, proj { s with text := t, block := b, lines := l } = proj s) : OpKeeps opQuote proj := by
  intro args s s' h
  have h1 := showText_keeps (proj := proj) (fun s b l => hp s s.text b l) h
  rw [h1]
  exact hp s _ s.block _

theorem keeps_doubleQuote (hp : ∀ (s : St) t b l, proj { s with text := t, block := b, lines := l } = proj s) : OpKeeps opDoubleQuote proj := by
  intro args s s' h
  simp only [opDoubleQuote] at h
  split at h
  · have h1 := showText_keeps (proj := proj) (fun s b l => hp s s.text b l) h
    rw [h1]
    exact hp s _ s.block s.lines
  · cases h

theorem keeps_image (hp : ∀ (s : St) d, proj { s with done := d } = proj s) : OpKeeps opImage proj := by
  intro args s s' h
  simp only [opImage] at h
  split at h
  · split at h <;> cases h
    · exact hp ..
    · rfl
  · cases h; rfl
  · cases h

theorem keeps_xobject (hp : ∀ (s : St) d, proj { s with done := d } = proj s) (R) : OpKeeps (opXObject R) proj := by
  intro args s s' h
  simp only [opXObject, bind, Except.bind] at h
  split at h
  · split at h
    · cases h
    · split at h
      · cases h
      · split at h
        · cases h
        · split at h
          · split at h <;> cases h
            exact hp ..
          · split at h <;> cases h
            · exact hp ..
            · rfl
  · cases h

end

theorem dictGet_mem_list {κ β : Type} [DecidableEq κ] {d : List (κ × β)} {k : κ} {v : β} (h : dictGet d k = some v) : (k, v) ∈ d := by
  induction d with
  | nil => cases h
  | cons e d ih =>
    obtain ⟨k', v'⟩ := e
    simp only [dictGet] at h
    split at h
    · cases h; subst_vars; exact List.mem_cons_self ..
    · exact List.mem_cons_of_mem _ (ih h)

/-- The operators other than `q` and `Q` leave the stack of saved states alone. -/
theorem commands_gstack (R : Resolver) : ∀ e ∈ commands R, e.1 ≠ asc "q" → e.1 ≠ asc "Q" → OpKeeps e.2.2 St.gstack := by
  have l : ∀ {P : (Bytes × Nat × Op) → Prop}, (∀ e ∈ commands R, P e) ↔ List.Forall P (commands R) := fun {P} => (List.forall_iff_forall_mem).symm
  rw [l]
  simp only [commands, List.Forall]
  refine ⟨fun h => absurd rfl h, fun _ h => absurd rfl h, ?_⟩
  refine ⟨?_, ?_, ?_, ?_, ?_, ?_, ?_, ?_, ?_, ?_, ?_, ?_, ?_, ?_, ?_, ?_, ?_, ?_, ?_, ?_, ?_, ?_, ?_, ?_, ?_, ?_, ?_, ?_, ?_, ?_, ?_, ?_, ?_, ?_, ?_, ?_,
    ?_, ?_, ?_, ?_, ?_, ?_, ?_, ?_, ?_, ?_, ?_, ?_, ?_, ?_, ?_, ?_, ?_, ?_, ?_, ?_⟩ <;> intro _ _
  all_goals first
    | exact keeps_concat (fun _ _ => rfl) | exact keeps_setG (fun _ _ => rfl) _ | exact keeps_dash (fun _ _ => rfl)
    | exact keeps_space (fun _ _ => rfl) _ | exact keeps_color (fun _ _ => rfl) _ _ | exact keeps_rgb (fun _ _ => rfl) _
    | exact keeps_custom (fun _ _ _ => rfl) _ _ | exact keeps_curve (fun _ _ => rfl) _ | exact keeps_rect (fun _ _ => rfl)
    | exact keeps_endPath (fun _ _ => rfl) | exact keeps_paint (fun _ _ _ => rfl) _ | exact keeps_closePaint (fun _ _ _ => rfl) _
    | exact keeps_begin (fun _ _ _ _ => rfl) | exact keeps_end (fun _ _ _ => rfl) | exact keeps_setT (fun _ _ => rfl) _
    | exact keeps_leading (fun _ _ => rfl) | exact keeps_font (fun _ _ => rfl) | exact keeps_move (fun _ _ _ => rfl)
    | exact keeps_moveLead (fun _ _ _ => rfl) | exact keeps_matrix (fun _ _ _ => rfl) | exact keeps_nextLine (fun _ _ _ => rfl)
    | exact keeps_showArray (fun _ _ _ => rfl) | exact keeps_show (fun _ _ _ => rfl) | exact keeps_quote (fun _ _ _ _ => rfl)
    | exact keeps_doubleQuote (fun _ _ _ _ => rfl) | exact keeps_image (fun _ _ => rfl) | exact keeps_xobject (fun _ _ => rfl) _

end Pdf
