import Verif.Props.Stream
import Verif.Proofs.TokenPos
/-! C27 witnesses; C65: reading an object terminates. -/

namespace Pdf
open Spec

variable {σ : Type}

/-- No references in the file. -/
def plainEnv (fallback : Bool) : Env Unit := ⟨fallback, fun o s => (.ok o, s)⟩

theorem plainEnv_direct (f) : (plainEnv f).Direct := fun _ _ _ => rfl

/-- The hypotheses of `stream_roundtrip` hold of a dictionary with a name, a number and a payload that contains the word
`endstream` and bytes of all kinds. -/
example : WF (.dict [(nameLength, .int 12), (.name [70], .name [71])]) ∧
    dictGet [(nameLength, Obj.int 12), (.name [70], .name [71])] nameLength =
      some (.int ([0, 255] ++ kwEndstream ++ [10] : Bytes).length) := by
  constructor
  · simp [WF, WFitems, nameLength]
  · decide

/-- The same file in fallback mode: the payload is cut at the first `endstream` in it. -/
theorem fallback_truncates :
    getobjParse (plainEnv true) 4096 20 (printStream 1 0 [(nameLength, .int 13)] ([97, 32] ++ kwEndstream ++ [32, 98])) 0 1 () =
      (.ok (.stream [(nameLength, .int 13)] [97, 32]), ()) ∧
    getobjParse (plainEnv false) 4096 20 (printStream 1 0 [(nameLength, .int 13)] ([97, 32] ++ kwEndstream ++ [32, 98])) 0 1 () =
      (.ok (.stream [(nameLength, .int 13)] ([97, 32] ++ kwEndstream ++ [32, 98])), ()) := by
  decide +kernel

/-- A wrong `Length` in an intact file: the stream holds `Length` bytes, and the parser still finds `endobj`. -/
theorem short_length :
    getobjParse (plainEnv false) 4096 20 (printStream 1 0 [(nameLength, .int 1)] [97, 98, 99]) 0 1 () =
      (.ok (.stream [(nameLength, .int 1)] [97]), ()) := by
  decide +kernel

/-! ### Termination -/

def NotRec {α : Type} (r : Except PyErr α) : Prop := r ≠ .error .recursion

theorem buildDict_notRec (os : List Obj) (d) : NotRec (buildDict d os) := by
  induction d, os using buildDict.induct with
  | case1 d k v rest h ih => rw [buildDict, if_pos h]; exact ih
  | case2 d k v rest h key hk ih => rw [buildDict, if_neg h, hk]; exact ih
  | case3 d k v rest h e hk =>
    rw [buildDict, if_neg h, hk]
    intro he
    simp only [Except.error.injEq] at he
    subst he
    cases k <;> simp [Obj.key] at hk
  | case4 d os h => rw [buildDict]; · simp [NotRec]
                    exact h

theorem doRef_notRec (st : StackSt) (p) : NotRec (st.doRef p) := by
  have hi : ∀ o : Obj, o.toInt ≠ .error .recursion := by intro o; cases o <;> simp [Obj.toInt]
  unfold StackSt.doRef
  split
  · split
    · rename_i e h; intro he; simp only [Except.error.injEq] at he; subst he; exact hi _ h
    · split
      · rename_i e h; intro he; simp only [Except.error.injEq] at he; subst he; exact hi _ h
      · simp [NotRec]
  · simp [NotRec]

theorem endType_notRec (st : StackSt) (t) : NotRec (st.endType t) := by
  unfold StackSt.endType
  repeat' split
  all_goals simp [NotRec]

theorem feed_notRec (st : StackSt) (p t) : NotRec (st.feed fileHooks p t) := by
  have hb : NotRec (st.feedBody fileHooks p t) := by
    unfold StackSt.feedBody
    split
    · simp [NotRec]
    · simp [NotRec]
    · simp [NotRec]
    · simp [NotRec]
    · simp [NotRec]
    · have hcs : ∀ ty, NotRec (st.closeSeq ty) := by
        intro ty
        have := endType_notRec st ty
        unfold StackSt.closeSeq
        split
        · simp [NotRec]
        · rename_i e h
          split
          · simp [NotRec]
          · intro he; simp only [Except.error.injEq] at he; subst he; exact this h
      repeat' split
      · simp [NotRec]
      · exact hcs _
      · simp [NotRec]
      · have := endType_notRec st .d
        unfold StackSt.closeDict
        split
        · split
          · simp [NotRec]
          · rename_i objs _ _ _
            have h2 := buildDict_notRec objs []
            split
            · simp [NotRec]
            · rename_i e h
              intro he; simp only [Except.error.injEq] at he; subst he; exact h2 h
        · rename_i e h
          split
          · simp [NotRec]
          · intro he; simp only [Except.error.injEq] at he; subst he; exact this h
      · simp [NotRec]
      · exact hcs _
      · simp only [fileHooks, fileKeyword]
        repeat' split
        · simp [NotRec]
        · simp [NotRec]
        · simp [NotRec]
        · exact doRef_notRec _ _
        · simp [NotRec]
  unfold StackSt.feed Hooks.settle
  split
  · split <;> simp [NotRec]
  · rename_i e h
    intro he; simp only [Except.error.injEq] at he; subst he; exact hb h

/-- The remaining tokens are at distinct places of the file, from `k` on. -/
def Remain (data : Bytes) (k : Nat) (s : Stream) : Prop :=
  s.1.Pairwise (fun x y => x.1 < y.1) ∧ (∀ x ∈ s.1, k ≤ x.1 ∧ x.1 < data.length) ∧ s.2 ≠ .recursion

theorem remain_lex (data : Bytes) (p : Nat) : Remain data p (lexRun {} p (data.drop p)) := by
  obtain ⟨h1, h2⟩ := pos_lexRun (data := data) (data.drop p) {} p rfl ⟨by simp, by simp [StartAt]⟩
  refine ⟨h1, fun x hx => ?_, ?_⟩
  · obtain ⟨a, b, _⟩ := h2 x hx
    simp only [LexSt.low, if_true] at a
    simp only [List.length_drop] at b
    omega
  · rcases lexRun_error (data.drop p) {} p with h | h <;> rw [h] <;> simp

theorem remain_tail {data k t ts e} (h : Remain data k (t :: ts, e)) : Remain data (t.1 + 1) (ts, e) := by
  obtain ⟨h1, h2, h3⟩ := h
  rw [List.pairwise_cons] at h1
  exact ⟨h1.2, fun x hx => ⟨h1.1 x hx, (h2 x (by simp [hx])).2⟩, h3⟩

/-- `resolve1` does not diverge and gives no negative `Length`. -/
structure Env.Tame (env : Env σ) : Prop where
  resolves : ∀ o s, (env.resolve1 o s).1 ≠ .error .recursion
  nonneg : ∀ d n s, (env.objlen d s).1 = .ok n → 0 ≤ n

theorem streamKwA_tame {env : Env σ} (he : env.Tame) (data : Bytes) (st : StackSt) (pos : Nat) (s : σ) :
    match (streamKwA env data st pos s).1 with
    | .ok (w, _) => Remain data (pos + 1) w
    | .error e => e ≠ .recursion := by
  unfold streamKwA
  generalize (st.pop 1).1 = popped
  rcases popped with _ | ⟨⟨q, o⟩, _ | ⟨_, _⟩⟩
  · simp
  · dsimp only
    have hdv : (env.dictValue o s).1 ≠ .error .recursion := by
      have := he.resolves o s
      unfold Env.dictValue
      split <;> simp_all
    rcases hd : env.dictValue o s with ⟨e | d, s1⟩
    · dsimp only; rintro rfl; rw [hd] at hdv; exact hdv rfl
    · dsimp only
      have hol : (env.objlen d s1).1 ≠ .error .recursion := by
        unfold Env.objlen
        split
        · simp
        · split
          · simp
          · rename_i o _
            have := he.resolves o s1
            unfold Env.intValue
            split <;> simp_all
      have hn := he.nonneg d
      rcases hl : env.objlen d s1 with ⟨e | n, s2⟩
      · dsimp only; rintro rfl; rw [hl] at hol; exact hol rfl
      · dsimp only
        have hn := he.nonneg d n s1 (by rw [hl])
        cases ht : takeLine false (data.drop pos) with
        | none => exact ⟨by simp, by simp, by simp⟩
        | some q =>
          obtain ⟨l, r⟩ := q
          have hll : 0 < l.length := by
            have h1 := takeLine_len ht
            have h2 := takeLine_spec (data.drop pos)
            rw [ht] at h2
            have := congrArg List.length h2.1
            simp only [List.length_append] at this
            omega
          dsimp only
          unfold streamBodyA
          dsimp only
          rw [if_neg (by omega)]
          dsimp only
          generalize hP : ((pos + l.length : Nat) + n : Int).toNat + _ = P
          have := remain_lex data P
          exact ⟨this.1, fun x hx => ⟨by have := (this.2.1 x hx).1; omega, (this.2.1 x hx).2⟩, this.2.2⟩
  · simp

theorem nextA_terminates {env : Env σ} (he : env.Tame) (data : Bytes) (fuel : Nat) (k : Nat) (w : Stream) (st : StackSt) (s : σ)
    (hs : Remain data k w) (hf : data.length - k < fuel) : NotRec (nextA env data fuel w st s).1 := by
  induction fuel generalizing k w st s with
  | zero => omega
  | succ fuel ih =>
    obtain ⟨ts, e⟩ := w
    rw [nextA.eq_def]
    dsimp only
    cases st.results with
    | cons r rs => simp [NotRec]
    | nil =>
      dsimp only
      cases ts with
      | nil => dsimp only; intro h; simp only [Except.error.injEq] at h; exact hs.2.2 h
      | cons t ts =>
        have ht := remain_tail hs
        have hk := hs.2.1 t (by simp)
        obtain ⟨pos, tok⟩ := t
        dsimp only at ht hk ⊢
        split
        · have := streamKwA_tame he data st pos s
          rcases hq : streamKwA env data st pos s with ⟨e | ⟨w', st'⟩, s'⟩
          · rw [hq] at this; dsimp only at this ⊢; intro h; simp only [Except.error.injEq] at h; exact this h
          · rw [hq] at this
            exact ih (pos + 1) w' st' s' this (by omega)
        · have := feed_notRec st pos tok
          cases hq : st.feed fileHooks pos tok with
          | error e => rw [hq] at this; exact fun h => this (by simpa using h)
          | ok st' => exact ih (pos + 1) (ts, e) st' s ht (by omega)

theorem skipA_terminates (data : Bytes) (fuel : Nat) (k : Nat) (s : Stream) (kwd x) (hs : Remain data k s) (hf : data.length - k < fuel) :
    match skipA fuel s kwd x with
    | .ok (s', _, _) => ∃ k', Remain data k' s'
    | .error e => e ≠ .recursion := by
  induction fuel generalizing k s kwd x with
  | zero => omega
  | succ fuel ih =>
    unfold skipA
    by_cases hk : kwd = .kw kwObj
    · rw [if_pos hk]; exact ⟨k, hs⟩
    · rw [if_neg hk]
      obtain ⟨ts, e⟩ := s
      cases ts with
      | nil => exact hs.2.2
      | cons t ts =>
        have hk := hs.2.1 t (by simp)
        obtain ⟨pos, tok⟩ := t
        dsimp only at hk ⊢
        exact ih (pos + 1) (ts, e) _ _ (remain_tail hs) (by omega)

/-- C65. Reading the object at any offset of any file ends after at most as many rounds as the file has bytes (plus one),
if no `Length` is negative (in fallback mode `Length` is not used) and looking up a `Length` ends. The bound on the number of rounds
is not reached, so the result is that of the unbounded loop. -/
theorem object_reading_terminates_partial (env : Env σ) (he : env.Tame) (b : Nat) (hb : 0 < b) (data : Bytes) (pos : Nat) (objid : Int) (fuel : Nat)
    (s : σ) (hf : data.length < fuel) : (getobjParse env b fuel data pos objid s).1 ≠ .error .recursion := by
  rw [getobjParse_eq hb]
  have hs := remain_lex data pos
  generalize lexRun {} pos (data.drop pos) = w at hs
  obtain ⟨ts, e⟩ := w
  have herr : e ≠ .recursion := hs.2.2
  rcases ts with _ | ⟨t1, _ | ⟨t2, _ | ⟨t3, ts⟩⟩⟩
  · simpa [parseA] using herr
  · simpa [parseA] using herr
  · simpa [parseA] using herr
  have h3 := remain_tail (remain_tail (remain_tail hs))
  obtain ⟨p1, t1⟩ := t1
  obtain ⟨p3, t3⟩ := t3
  dsimp only [parseA]
  have hfix : match fixA fuel (ts, e) t1 t3 objid with
      | .ok (s', _) => ∃ k', Remain data k' s'
      | .error e => e ≠ .recursion := by
    unfold fixA
    by_cases hn : t1.isNum objid = true
    · rw [if_pos hn]; exact ⟨_, h3⟩
    · rw [if_neg hn]
      have := skipA_terminates data fuel _ _ t3 [] h3 (by omega)
      cases hq : skipA fuel (ts, e) t3 [] with
      | error e => rw [hq] at this; exact this
      | ok q =>
        obtain ⟨s', k', x⟩ := q
        rw [hq] at this
        dsimp only at this ⊢
        rcases x.reverse with _ | ⟨a, _ | ⟨c, l⟩⟩
        · exact this
        · simp
        · exact this
  cases hq : fixA fuel (ts, e) t1 t3 objid with
  | error e => rw [hq] at hfix; dsimp only at hfix ⊢; intro h; simp only [Except.error.injEq] at h; exact hfix h
  | ok q =>
    obtain ⟨s', o, k⟩ := q
    rw [hq] at hfix
    obtain ⟨k', hk'⟩ := hfix
    dsimp only [finishA]
    split
    · simp
    · split
      · simp
      · have := nextA_terminates he data fuel k' s' {} s hk' (by omega)
        rcases hx : nextA env data fuel s' {} s with ⟨e | q, s2⟩
        · rw [hx] at this; exact fun h => this (by simpa using h)
        · simp

theorem tame_fallback : (plainEnv true).Tame := ⟨by simp [plainEnv], by simp [plainEnv, Env.objlen]⟩

/-- `endstream 1 0 obj <</Length -39>> stream LF`: a negative `Length` moves the parser back before an earlier
`endstream`. -/
def loopFile : Bytes :=
  kwEndstream ++ [10] ++ [49, 32, 48, 32] ++ kwObj ++ [60, 60, 47, 76, 101, 110, 103, 116, 104, 32, 45, 51, 57, 62, 62] ++ kwStream ++ [10]

theorem loop_tokens : lexRun {} 10 (loopFile.drop 10) =
    ([(10, .int 1), (12, .int 0), (14, .kw kwObj), (17, .kw [60, 60]), (19, .lit [76, 101, 110, 103, 116, 104]), (27, .int (-39)), (30, .kw [62, 62]),
      (32, .kw kwStream)], .psEOF) := by decide +kernel

theorem loop_tokens0 : lexRun {} 0 (loopFile.drop 0) =
    ([(0, .kw kwEndstream), (10, .int 1), (12, .int 0), (14, .kw kwObj), (17, .kw [60, 60]), (19, .lit [76, 101, 110, 103, 116, 104]), (27, .int (-39)),
      (30, .kw [62, 62]), (32, .kw kwStream)], .psEOF) := by decide +kernel

/-- What is on the stack does not matter when `stream` is reached with the dictionary on top. -/
theorem loop_stream (x : List (Nat × Obj)) : streamKwA (plainEnv false) loopFile { curstack := x ++ [(17, .dict [(nameLength, .int (-39))])] } 32 () =
    (.ok (lexRun {} 0 (loopFile.drop 0), { curstack := [(39, .stream [(nameLength, .int (-39))] [])] }), ()) := by
  have h1 : (takeLine false (loopFile.drop 32)) = some (kwStream ++ [10], []) := by decide +kernel
  have h2 : scanU (loopFile.length + 1) loopFile 0 [] = (0, []) := by decide +kernel
  have h3 : readAt loopFile 39 (-39) = [] := by decide +kernel
  unfold streamKwA
  simp only [StackSt.pop, List.length_append, List.length_singleton, Nat.add_sub_cancel, List.drop_left]
  simp only [plainEnv, Env.dictValue, Env.objlen, Env.intValue, dictGet, if_true, h1, streamBodyA, kwStream]
  simp [h2, h3, StackSt.push]

theorem loop_nextA (fuel : Nat) (x : List (Nat × Obj)) :
    nextA (plainEnv false) loopFile fuel ([(32, .kw kwStream)], .psEOF) { curstack := x ++ [(17, .dict [(nameLength, .int (-39))])] } () = (.error .recursion, ()) := by
  induction fuel using Nat.strongRecOn generalizing x with
  | ind fuel ih =>
    cases fuel with
    | zero => rfl
    | succ fuel =>
      rw [nextA.eq_def]
      dsimp only
      rw [if_pos rfl, loop_stream]
      dsimp only
      rw [loop_tokens0]
      by_cases hf : fuel ≤ 8
      · have : ∀ f < 9, nextA (plainEnv false) loopFile f ([(0, .kw kwEndstream), (10, .int 1), (12, .int 0), (14, .kw kwObj), (17, .kw [60, 60]),
            (19, .lit [76, 101, 110, 103, 116, 104]), (27, .int (-39)), (30, .kw [62, 62]), (32, .kw kwStream)], .psEOF)
            { curstack := [(39, .stream [(nameLength, .int (-39))] [])] } () = (.error .recursion, ()) := by decide +kernel
        exact this fuel (by omega)
      · obtain ⟨f, rfl⟩ : ∃ f, fuel = f + 8 := ⟨fuel - 8, by omega⟩
        have hfa : feedAll fileHooks { curstack := [(39, .stream [(nameLength, .int (-39))] [])] }
            [(0, .kw kwEndstream), (10, .int 1), (12, .int 0), (14, .kw kwObj), (17, .kw [60, 60]), (19, .lit [76, 101, 110, 103, 116, 104]), (27, .int (-39)), (30, .kw [62, 62])] =
            .ok { curstack := [(39, .stream [(nameLength, .int (-39))] []), (0, .kw kwEndstream), (10, .int 1), (12, .int 0), (14, .kw kwObj)] ++
              [(17, .dict [(nameLength, .int (-39))])] } := by rfl
        have := nextA_feedAll (plainEnv false) loopFile _ [(32, .kw kwStream)] .psEOF f hfa rfl (by decide) ()
        rw [show ∀ (l : List (Nat × Tok)), l = [(0, .kw kwEndstream), (10, .int 1), (12, .int 0), (14, .kw kwObj), (17, .kw [60, 60]), (19, .lit [76, 101, 110, 103, 116, 104]), (27, .int (-39)), (30, .kw [62, 62])] → f + l.length = f + 8 from fun l h => by rw [h]; rfl] at this
        · exact this.trans (ih f (by omega) _)
        · rfl

/-- C65: a file of 39 bytes on which the parser loops forever: no number of rounds is enough. -/
theorem negative_length_diverges (b : Nat) (hb : 0 < b) (fuel : Nat) :
    getobjParse (plainEnv false) b fuel loopFile 10 1 () = (.error .recursion, ()) := by
  rw [getobjParse_eq hb, loop_tokens]
  have hnum : (Tok.int 1).isNum 1 = true := by decide
  simp only [parseA, fixA, hnum, if_true, finishA, not_true, ne_eq, if_false]
  by_cases hf : fuel ≤ 3
  · have : ∀ f < 4, nextA (plainEnv false) loopFile f ([(17, .kw [60, 60]), (19, .lit [76, 101, 110, 103, 116, 104]), (27, .int (-39)), (30, .kw [62, 62]), (32, .kw kwStream)], .psEOF)
        {} () = (.error .recursion, ()) := by decide +kernel
    rw [this fuel (by omega)]
  · obtain ⟨f, rfl⟩ : ∃ f, fuel = f + 4 := ⟨fuel - 4, by omega⟩
    have hfa : feedAll fileHooks {} [(17, .kw [60, 60]), (19, .lit [76, 101, 110, 103, 116, 104]), (27, .int (-39)), (30, .kw [62, 62])] =
        .ok { curstack := [] ++ [(17, .dict [(nameLength, .int (-39))])] } := by rfl
    have := nextA_feedAll (plainEnv false) loopFile _ [(32, .kw kwStream)] .psEOF f hfa rfl (by decide) ()
    rw [show nextA (plainEnv false) loopFile (f + 4) ([(17, .kw [60, 60]), (19, .lit [76, 101, 110, 103, 116, 104]), (27, .int (-39)), (30, .kw [62, 62]), (32, .kw kwStream)], .psEOF)
        {} () = (.error .recursion, ()) from this.trans (loop_nextA f [])]

end Pdf
