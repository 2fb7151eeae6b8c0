import Verif.Proofs.ContentText
import Mathlib.Data.List.Induction
/-! The content parser terminates. -/

namespace Pdf

theorem lexRunK_split {α : Type} (tag : Nat × Tok → α) (k : LexSt → TStream α) (st : LexSt) (p : Nat) (w : Bytes) :
    ∃ X : TStream α, (X = ([], .structError) ∨ ∃ st', X = k st') ∧ lexRunK tag k st p w = ((lexRun st p w).1.map tag ++ X.1, X.2) := by
  induction w generalizing st p with
  | nil => exact ⟨k st, Or.inr ⟨st, rfl⟩, rfl⟩
  | cons c cs ih =>
    rw [lexRunK]
    have he := lexRun_error (c :: cs) st p
    rw [lexRun] at he ⊢
    cases h : lexStep st p c with
    | error e =>
      rw [h] at he
      refine ⟨([], .structError), Or.inl rfl, ?_⟩
      have : e = .structError := by
        cases hf : st.fn <;> simp [lexStep, hf] at h
        unfold stepString1 at h
        repeat' split at h
        all_goals cases h
        rfl
      simp [this]
    | ok q =>
      obtain ⟨st', toks⟩ := q
      obtain ⟨X, h1, h2⟩ := ih st' (p + 1)
      refine ⟨X, h1, ?_⟩
      simp [TStream.pre, Stream.pre, h2]

/-- The bytes left when a token is an `ID`. -/
def Ann.weight (t : Ann) : Nat := (t.2.1.drop (t.1.1 + 3)).length + t.2.2.flatten.length

def Good (m : Nat) (s : TStream Ann) : Prop := (∀ t ∈ s.1, t.weight < m) ∧ s.2 ≠ .recursion

theorem Good.mono {m m' s} (h : Good m s) (hm : m ≤ m') : Good m' s := ⟨fun t ht => Nat.lt_of_lt_of_le (h.1 t ht) hm, h.2⟩

theorem good_lexRunK {d : Bytes} {rest : List Bytes} {st : LexSt} {p : Nat} {w : Bytes} {m : Nat} (hm : rest.flatten.length ≤ m)
    (hw : ∀ x ∈ (lexRun st p w).1, (annot d rest x).weight < m) (hk : ∀ st, Good rest.flatten.length (lexNext rest st)) :
    Good m (lexFrom d rest st p w) := by
  obtain ⟨X, h1, h2⟩ := lexRunK_split (annot d rest) (lexNext rest) st p w
  have hX : Good m X := by
    rcases h1 with rfl | ⟨st', rfl⟩
    · exact ⟨by simp, by simp⟩
    · exact (hk st').mono hm
  unfold lexFrom
  rw [h2]
  refine ⟨fun t ht => ?_, hX.2⟩
  rcases List.mem_append.mp ht with h | h
  · obtain ⟨x, hx, rfl⟩ := List.mem_map.mp h
    exact hw x hx
  · exact hX.1 t h

theorem lexRun_ne {st p w x} (h : x ∈ (lexRun st p w).1) : 0 < w.length := by
  cases w with
  | nil => simp [lexRun] at h
  | cons c cs => simp

theorem good_lexNext (streams : List Bytes) : ∀ st, Good streams.flatten.length (lexNext streams st) := by
  induction streams with
  | nil => exact fun _ => ⟨by simp [lexNext], by simp [lexNext]⟩
  | cons x rest ih =>
    intro st
    rw [lexNext_cons]
    refine good_lexRunK (by simp) (fun y hy => ?_) ih
    have := lexRun_ne hy
    simp only [Ann.weight, annot, List.length_drop, List.flatten_cons, List.length_append]
    omega

theorem good_lexFrom (d : Bytes) (rest : List Bytes) (p : Nat) : Good ((d.drop p).length + rest.flatten.length) (lexFrom d rest {} p (d.drop p)) := by
  refine good_lexRunK (by omega) (fun y hy => ?_) (good_lexNext rest)
  have h1 := lexRun_ne hy
  have h2 := lexRun_shift 0 p (d.drop p)
  rw [Nat.zero_add] at h2
  rw [h2] at hy
  obtain ⟨z, _, rfl⟩ := List.mem_map.mp hy
  simp only [Ann.weight, annot, List.length_drop] at h1 ⊢
  omega

/-- The stream after the image data. -/
def Later (m : Nat) : ScanRes → Prop
  | .ok (_, s) => Good m s
  | .error e => e ≠ .recursion

theorem Later.mono {m m' r} (h : Later m r) (hm : m ≤ m') : Later m' r := by
  cases r with
  | error e => exact h
  | ok q => exact Good.mono (m := m) h hm

theorem later_scanK {target d : Bytes} {rest : List Bytes} (hn : ∀ i acc, Later rest.flatten.length (scanNext target rest i acc)) (w : Bytes) :
    ∀ i acc p, d.drop p = w → Later (w.length + rest.flatten.length) (scanFrom target d rest i acc p w) := by
  induction w with
  | nil =>
    intro i acc p hd
    by_cases h : target.length < i
    · rw [scanFrom_found h]
      have := good_lexFrom d rest p
      rwa [hd] at this
    · rw [scanFrom_nil (by omega)]
      exact (hn i acc).mono (by simp)
  | cons c cs ih =>
    intro i acc p hd
    by_cases h : target.length < i
    · rw [scanFrom_found h]
      have := good_lexFrom d rest p
      rwa [hd] at this
    · rw [scanFrom_cons (by omega)]
      refine (ih (eiNext target i c) (acc ++ [c]) (p + 1) ?_).mono (by simp)
      rw [← List.drop_drop, hd]
      rfl

theorem later_scanNext (target : Bytes) (streams : List Bytes) : ∀ i acc, Later streams.flatten.length (scanNext target streams i acc) := by
  induction streams with
  | nil => intro i acc; simp [scanNext, Later]
  | cons x rest ih =>
    intro i acc
    have := later_scanK (target := target) (d := x) ih x i acc 0 rfl
    simpa [scanFrom, scanNext] using this

theorem later_getInline (d : Bytes) (rest : List Bytes) (pos : Nat) :
    Later ((d.drop pos).length + rest.flatten.length) (getInlineA d rest pos) := by
  unfold getInlineA
  have := later_scanK (later_scanNext kwEI rest) (d.drop pos) 0 [] pos rfl
  revert this
  generalize scanFrom kwEI d rest 0 [] pos (d.drop pos) = r
  intro h
  rcases r with e | ⟨a, s⟩
  · exact h
  · exact h

theorem endType_ne {st : StackSt} {ty : Ty} : st.endType ty ≠ .error .recursion := by
  unfold StackSt.endType
  split
  · simp
  · split <;> simp

theorem key_ne {o : Obj} : o.key ≠ .error .recursion := by cases o <;> simp [Obj.key]

theorem buildDict_ne (os : List Obj) : ∀ d, buildDict d os ≠ .error .recursion := by
  induction os using List.twoStepInduction with
  | nil => intro d; simp [buildDict]
  | singleton x => intro d; simp [buildDict]
  | cons_cons k v rest ih =>
    intro d
    rw [buildDict]
    split
    · exact ih d
    · split
      · exact ih _
      · rename_i e he; have := key_ne (o := k); rw [he] at this; simpa using this

theorem inlineDict_ne (os : List Obj) : ∀ d, inlineDict d os ≠ .error .recursion := by
  induction os using List.twoStepInduction with
  | nil => intro d; simp [inlineDict]
  | singleton x => intro d; simp [inlineDict]
  | cons_cons k v rest ih =>
    intro d
    rw [inlineDict]
    split
    · exact ih _
    · rename_i e he; have := key_ne (o := k); rw [he] at this; simpa using this

theorem feed_ne {st : StackSt} {p : Nat} {t : Tok} : st.feed inlineHooks p t ≠ .error .recursion := by
  have hset : ∀ r, r ≠ .error .recursion → inlineHooks.settle r ≠ .error .recursion := by
    intro r hr
    cases r with
    | error e => exact hr
    | ok s => simp only [Hooks.settle]; split <;> simp
  have hseq : ∀ ty, st.closeSeq ty ≠ .error .recursion := by
    intro ty
    unfold StackSt.closeSeq
    split
    · simp
    · rename_i e he
      split
      · simp
      · rintro ⟨⟩; exact endType_ne he
  refine hset _ ?_
  unfold StackSt.feedBody
  split
  all_goals try simp
  split
  · simp
  split
  · exact hseq _
  split
  · simp
  split
  · unfold StackSt.closeDict
    split
    · split
      · simp
      · split
        · simp
        · rename_i e he; rintro ⟨⟩; exact buildDict_ne _ _ he
    · rename_i e he
      split
      · simp
      · rintro ⟨⟩; exact endType_ne he
  split
  · simp
  split
  · exact hseq _
  · simp only [inlineHooks]; split <;> simp

/-- One round: the tokens after the token, or those after the image data. -/
theorem stepA_cases (ts : List Ann) (e0 : PyErr) (st : StackSt) (t : Ann) :
    (∃ e, e ≠ .recursion ∧ stepA (ts, e0) st t = .error e) ∨ (∃ st', stepA (ts, e0) st t = .ok ((ts, e0), st')) ∨
    ∃ s' st', Good t.weight s' ∧ stepA (ts, e0) st t = .ok (s', st') := by
  unfold stepA
  split
  · have hid : (∃ e, e ≠ .recursion ∧ idA (ts, e0) st t.1.1 t.2.1 t.2.2 = .error e) ∨ (∃ st', idA (ts, e0) st t.1.1 t.2.1 t.2.2 = .ok ((ts, e0), st')) ∨
        ∃ s' st', Good t.weight s' ∧ idA (ts, e0) st t.1.1 t.2.1 t.2.2 = .ok (s', st') := by
      unfold idA
      cases he : st.endType .inline with
      | error e =>
        dsimp only
        split
        · exact Or.inr (Or.inl ⟨_, rfl⟩)
        · exact Or.inl ⟨e, fun h => endType_ne (h ▸ he), rfl⟩
      | ok q =>
        obtain ⟨⟨_, objs⟩, st1⟩ := q
        dsimp only
        split
        · exact Or.inr (Or.inl ⟨_, rfl⟩)
        · cases hd : inlineDict [] objs with
          | error e => exact Or.inl ⟨e, fun h => inlineDict_ne _ _ (h ▸ hd), rfl⟩
          | ok d =>
            dsimp only
            have := later_getInline t.2.1 t.2.2 (t.1.1 + 3)
            revert this
            generalize getInlineA t.2.1 t.2.2 (t.1.1 + 3) = r
            intro h
            rcases r with e | ⟨a, s⟩
            · exact Or.inl ⟨e, h, rfl⟩
            · exact Or.inr (Or.inr ⟨s, _, h, rfl⟩)
    rcases hid with ⟨e, h1, h2⟩ | ⟨st', h⟩ | ⟨s', st', h1, h2⟩
    · rw [h2]; exact Or.inl ⟨e, h1, rfl⟩
    · rw [h]; simp only [settleA]; split <;> exact Or.inr (Or.inl ⟨_, rfl⟩)
    · rw [h2]; simp only [settleA]; split <;> exact Or.inr (Or.inr ⟨_, _, h1, rfl⟩)
  · cases hf : st.feed inlineHooks t.1.1 t.1.2 with
    | error e => exact Or.inl ⟨e, fun h => feed_ne (h ▸ hf), rfl⟩
    | ok s => exact Or.inr (Or.inl ⟨_, rfl⟩)

theorem yields_total (m : Nat) : ∀ (s : TStream Ann) (st : StackSt), Good m s → ∃ os e, e ≠ .recursion ∧ Yields s st os e := by
  induction m using Nat.strongRecOn with
  | ind m ihm =>
    rintro ⟨ts, e0⟩ st hg
    induction ts generalizing st with
    | nil =>
      have := Yields.pre (s := ([], e0)) (st := { st with results := [] }) (e := e0) (.eof rfl) st.results
      exact ⟨_, e0, hg.2, by simpa [StackSt.pre] using this⟩
    | cons t ts ih =>
      have key : ∃ os e, e ≠ .recursion ∧ Yields (t :: ts, e0) { st with results := [] } os e := by
        rcases stepA_cases ts e0 { st with results := [] } t with ⟨e, h1, h2⟩ | ⟨st', h⟩ | ⟨s', st', h1, h2⟩
        · exact ⟨[], e, h1, .fail rfl h2⟩
        · obtain ⟨os, e, h3, h4⟩ := ih st' ⟨fun x hx => hg.1 x (List.mem_cons_of_mem _ hx), hg.2⟩
          exact ⟨os, e, h3, .step rfl h h4⟩
        · obtain ⟨os, e, h3, h4⟩ := ihm t.weight (hg.1 t List.mem_cons_self) s' st' h1
          exact ⟨os, e, h3, .step rfl h2 h4⟩
      obtain ⟨os, e, h1, h2⟩ := key
      have := h2.pre st.results
      exact ⟨_, e, h1, by simpa [StackSt.pre] using this⟩

end Pdf
