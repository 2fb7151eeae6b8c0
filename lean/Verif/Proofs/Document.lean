import Verif.Model.Document
import Verif.Proofs.FileParser
/-! Fuel: more fuel gives the same results (`Le`), and a run that ends with one way of resolving references ends in the same
way with another one that eventually gives the same answers (`Evt`). -/

namespace Pdf
open Spec

variable {σ τ α β : Type}

/-- The result `x` is that of an exhausted run or equal to `y`. -/
def Le (x y : Except PyErr α) : Prop := x = .error .recursion ∨ x = y

theorem Le.rfl {x : Except PyErr α} : Le x x := Or.inr (_root_.rfl)

/-- From some number on. -/
def Evt (p : Nat → Prop) : Prop := ∃ n, ∀ k, n ≤ k → p k

theorem Evt.all {p : Nat → Prop} (h : ∀ k, p k) : Evt p := ⟨0, fun k _ => h k⟩
theorem Evt.and {p q : Nat → Prop} (hp : Evt p) (hq : Evt q) : Evt fun k => p k ∧ q k := by
  obtain ⟨n, hn⟩ := hp
  obtain ⟨m, hm⟩ := hq
  exact ⟨max n m, fun k hk => ⟨hn k (by omega), hm k (by omega)⟩⟩
theorem Evt.mono {p q : Nat → Prop} (hp : Evt p) (h : ∀ k, p k → q k) : Evt q := by
  obtain ⟨n, hn⟩ := hp
  exact ⟨n, fun k hk => h k (hn k hk)⟩
theorem Evt.succ {p : Nat → Prop} (hp : Evt fun k => p (k + 1)) : Evt p := by
  obtain ⟨n, hn⟩ := hp
  refine ⟨n + 1, fun k hk => ?_⟩
  obtain ⟨k, rfl⟩ : ∃ j, k = j + 1 := ⟨k - 1, by omega⟩
  exact hn k (by omega)
theorem Evt.ge (n : Nat) : Evt fun k => n ≤ k := ⟨n, fun _ h => h⟩
theorem Evt.exists {p : Nat → Prop} (hp : Evt p) : ∃ k, p k := ⟨hp.choose, hp.choose_spec _ (Nat.le_refl _)⟩

/-! ### The parser -/

section inv
variable (env : Env σ) (I : σ → Prop) (h : ∀ o s, I s → I (env.resolve1 o s).2)
include h

theorem dictValue_inv (o : Obj) (s : σ) (hs : I s) : I (env.dictValue o s).2 := by
  have := h o s hs
  unfold Env.dictValue
  split <;> (rename_i hx; rw [hx] at this; exact this)

theorem objlen_inv (d) (s : σ) (hs : I s) : I (env.objlen d s).2 := by
  unfold Env.objlen
  split
  · exact hs
  · split
    · exact hs
    · rename_i o _
      have := h o s hs
      unfold Env.intValue
      split <;> (rename_i hx; rw [hx] at this; exact this)

theorem streamKwA_inv (data st pos) (s : σ) (hs : I s) : I (streamKwA env data st pos s).2 := by
  unfold streamKwA
  split
  · rename_i o _
    have h1 := dictValue_inv env I h o s hs
    split
    · rename_i hx; rw [hx] at h1; exact h1
    · rename_i d s1 hx; rw [hx] at h1
      have h2 := objlen_inv env I h d s1 h1
      split
      · rename_i hx; rw [hx] at h2; exact h2
      · rename_i hx; rw [hx] at h2
        repeat' split
        all_goals exact h2
  · exact hs

theorem nextA_inv (data fuel w st) (s : σ) (hs : I s) : I (nextA env data fuel w st s).2 := by
  induction fuel generalizing w st s with
  | zero => exact hs
  | succ fuel ih =>
    unfold nextA
    split
    · exact hs
    · split
      · exact hs
      · split
        · have h1 := streamKwA_inv env I h data st ‹_› s hs
          split
          · rename_i hx; rw [hx] at h1; exact ih _ _ _ h1
          · rename_i hx; rw [hx] at h1; exact h1
        · split
          · exact ih _ _ _ hs
          · exact hs

theorem parseA_inv (fuel data w objid) (s : σ) (hs : I s) : I (parseA env fuel data w objid s).2 := by
  unfold parseA
  split
  · split
    · exact hs
    · unfold finishA
      split
      · exact hs
      · split
        · exact hs
        · have := nextA_inv env I h data fuel ‹_› {} s hs
          split <;> (rename_i hx; rw [hx] at this; exact this)
  · exact hs
end inv

section le
variable (env : Env σ) (env' : Env τ) (I : σ → Prop) (J : τ → Prop) (hfb : env.fallback = env'.fallback)
  (hI : ∀ o s, I s → I (env.resolve1 o s).2) (hJ : ∀ o s, J s → J (env'.resolve1 o s).2)
  (hle : ∀ o s t, I s → J t → Le (env.resolve1 o s).1 (env'.resolve1 o t).1)

include hle in
theorem dictValue_le (o : Obj) (s : σ) (t : τ) (hs : I s) (ht : J t) : Le (env.dictValue o s).1 (env'.dictValue o t).1 := by
  have := hle o s t hs ht
  unfold Env.dictValue
  generalize env.resolve1 o s = rr at *
  obtain ⟨x, s1⟩ := rr
  generalize env'.resolve1 o t = rr at *
  obtain ⟨y, t1⟩ := rr
  rcases this with hx | hx
  · subst hx; exact Or.inl rfl
  · subst hx
    rcases x with e | o
    · exact Or.inr rfl
    · cases o <;> exact Or.inr rfl

include hle hfb in
theorem objlen_le (d) (s : σ) (t : τ) (hs : I s) (ht : J t) : Le (env.objlen d s).1 (env'.objlen d t).1 := by
  unfold Env.objlen
  rw [hfb]
  split
  · exact Or.inr rfl
  · split
    · exact Or.inr rfl
    · rename_i o _
      have := hle o s t hs ht
      unfold Env.intValue
      generalize env.resolve1 o s = rr at *
      obtain ⟨x, s1⟩ := rr
      generalize env'.resolve1 o t = rr at *
      obtain ⟨y, t1⟩ := rr
      rcases this with hx | hx
      · subst hx; exact Or.inl rfl
      · subst hx
        rcases x with e | o
        · exact Or.inr rfl
        · cases o <;> exact Or.inr rfl

include hle hfb hI hJ in
theorem streamKwA_le (data st pos) (s : σ) (t : τ) (hs : I s) (ht : J t) :
    Le (streamKwA env data st pos s).1 (streamKwA env' data st pos t).1 := by
  unfold streamKwA
  generalize (st.pop 1).1 = popped
  rcases popped with _ | ⟨⟨q, o⟩, _ | ⟨_, _⟩⟩
  · exact Or.inr rfl
  · dsimp only
    have h1 := dictValue_le env env' I J hle o s t hs ht
    have h2 := dictValue_inv env I hI o s hs
    have h3 := dictValue_inv env' J hJ o t ht
    generalize env.dictValue o s = rr at *
    obtain ⟨x, s1⟩ := rr
    generalize env'.dictValue o t = rr at *
    obtain ⟨y, t1⟩ := rr
    rcases h1 with hx | hx
    · subst hx; exact Or.inl rfl
    · subst hx
      rcases x with e | d
      · exact Or.inr rfl
      · dsimp only at h2 h3 ⊢
        have h4 := objlen_le env env' I J hfb hle d s1 t1 h2 h3
        generalize env.objlen d s1 = rr at *
        obtain ⟨x, s2⟩ := rr
        generalize env'.objlen d t1 = rr at *
        obtain ⟨y, t2⟩ := rr
        rcases h4 with hx | hx
        · subst hx; exact Or.inl rfl
        · subst hx
          rcases x with e | d
          · exact Or.inr rfl
          · dsimp only
            have hb : ∀ p dd l, streamBodyA env data p dd l = streamBodyA env' data p dd l := by
              intros; unfold streamBodyA; rw [hfb]
            rcases takeLine false (data.drop pos) with _ | ⟨line, rest⟩
            · exact Or.inr rfl
            · dsimp only
              rw [hb]
              rcases streamBodyA env' data _ _ _ with _ | ⟨p, st⟩ <;> exact Or.inr rfl
  · exact Or.inr rfl

include hle hfb hI hJ in
theorem nextA_le (data) (fuel fuel' : Nat) (hf : fuel ≤ fuel') (w st) (s : σ) (t : τ) (hs : I s) (ht : J t) :
    Le (nextA env data fuel w st s).1 (nextA env' data fuel' w st t).1 := by
  induction fuel generalizing fuel' w st s t with
  | zero => exact Or.inl rfl
  | succ fuel ih =>
    obtain ⟨fuel', rfl⟩ : ∃ j, fuel' = j + 1 := ⟨fuel' - 1, by omega⟩
    unfold nextA
    rcases st.results with _ | ⟨r, rs⟩
    · dsimp only
      rcases w with ⟨_ | ⟨⟨pos, tok⟩, ts⟩, e⟩
      · exact Or.inr rfl
      · dsimp only
        by_cases hk : tok = .kw kwStream
        · rw [if_pos hk, if_pos hk]
          have h1 := streamKwA_le env env' I J hfb hI hJ hle data st pos s t hs ht
          have h2 := streamKwA_inv env I hI data st pos s hs
          have h3 := streamKwA_inv env' J hJ data st pos t ht
          generalize streamKwA env data st pos s = rr at *
          obtain ⟨x, s1⟩ := rr
          generalize streamKwA env' data st pos t = rr at *
          obtain ⟨y, t1⟩ := rr
          rcases h1 with hx | hx
          · subst hx; exact Or.inl rfl
          · subst hx
            rcases x with e | ⟨w, st⟩
            · exact Or.inr rfl
            · exact ih fuel' (by omega) w st s1 t1 h2 h3
        · rw [if_neg hk, if_neg hk]
          rcases st.feed fileHooks pos tok with e | st
          · exact Or.inr rfl
          · exact ih fuel' (by omega) _ st s t hs ht
    · exact Or.inr rfl

theorem skipA_le (fuel fuel' : Nat) (hf : fuel ≤ fuel') (w kwd x) : Le (skipA fuel w kwd x) (skipA fuel' w kwd x) := by
  induction fuel generalizing fuel' w kwd x with
  | zero => exact Or.inl rfl
  | succ fuel ih =>
    obtain ⟨fuel', rfl⟩ : ∃ j, fuel' = j + 1 := ⟨fuel' - 1, by omega⟩
    unfold skipA
    split
    · exact Or.inr rfl
    · rcases w with ⟨_ | ⟨⟨pos, tok⟩, ts⟩, e⟩
      · exact Or.inr rfl
      · exact ih fuel' (by omega) _ _ _

theorem fixA_le (fuel fuel' : Nat) (hf : fuel ≤ fuel') (w t k objid) : Le (fixA fuel w t k objid) (fixA fuel' w t k objid) := by
  unfold fixA
  split
  · exact Or.inr rfl
  · rcases skipA_le fuel fuel' hf w k [] with h | h
    · rw [h]; exact Or.inl rfl
    · rw [h]; exact Or.inr rfl

include hle hfb hI hJ in
theorem parseA_le (data) (fuel fuel' : Nat) (hf : fuel ≤ fuel') (w objid) (s : σ) (t : τ) (hs : I s) (ht : J t) :
    Le (parseA env fuel data w objid s).1 (parseA env' fuel' data w objid t).1 := by
  rcases w with ⟨_ | ⟨⟨_, t1⟩, _ | ⟨_, _ | ⟨⟨_, t3⟩, ts⟩⟩⟩, e⟩
  · exact Or.inr rfl
  · exact Or.inr rfl
  · exact Or.inr rfl
  · dsimp only [parseA]
    rcases fixA_le fuel fuel' hf (ts, e) t1 t3 objid with h | h
    · rw [h]; exact Or.inl rfl
    · rw [h]
      rcases fixA fuel' (ts, e) t1 t3 objid with e | ⟨w, objid1, kwd⟩
      · exact Or.inr rfl
      · dsimp only [finishA]
        split
        · exact Or.inr rfl
        · split
          · exact Or.inr rfl
          · have := nextA_le env env' I J hfb hI hJ hle data fuel fuel' hf w {} s t hs ht
            generalize nextA env data fuel w {} s = rr at *
            obtain ⟨x, s1⟩ := rr
            generalize nextA env' data fuel' w {} t = rr at *
            obtain ⟨y, t1⟩ := rr
            rcases this with hx | hx
            · subst hx; exact Or.inl rfl
            · subst hx
              rcases x with e | ⟨_, _⟩ <;> exact Or.inr rfl
end le

section evt
variable (env : Env σ) (envs : Nat → Env τ) (I : σ → Prop) (t : τ) (hfb : ∀ n, (envs n).fallback = env.fallback)
  (hI : ∀ o s, I s → I (env.resolve1 o s).2)
  (hev : ∀ o s, I s → (env.resolve1 o s).1 ≠ .error .recursion → Evt fun n => (envs n).resolve1 o t = ((env.resolve1 o s).1, t))

include hev in
theorem dictValue_ev (o : Obj) (s : σ) (hs : I s) (hn : (env.dictValue o s).1 ≠ .error .recursion) :
    Evt fun n => (envs n).dictValue o t = ((env.dictValue o s).1, t) := by
  have h1 := hev o s hs
  unfold Env.dictValue at hn ⊢
  generalize env.resolve1 o s = rr at *
  obtain ⟨x, s1⟩ := rr
  try dsimp only at h1
  refine (h1 ?_).mono fun n h => ?_
  · rintro rfl; exact hn rfl
  · rw [h]
    rcases x with e | o
    · rfl
    · cases o <;> rfl

include hev hfb in
theorem objlen_ev (d) (s : σ) (hs : I s) (hn : (env.objlen d s).1 ≠ .error .recursion) :
    Evt fun n => (envs n).objlen d t = ((env.objlen d s).1, t) := by
  unfold Env.objlen at hn ⊢
  by_cases hf : env.fallback = true
  · exact .all fun n => by rw [hfb n, if_pos hf, if_pos hf]
  · rw [if_neg hf] at hn ⊢
    rcases hd : dictGet d nameLength with _ | o
    · exact .all fun n => by rw [hfb n, if_neg hf]
    · rw [hd] at hn
      dsimp only at hn ⊢
      have h1 := hev o s hs
      unfold Env.intValue at hn ⊢
      generalize env.resolve1 o s = rr at *
      obtain ⟨x, s1⟩ := rr
      try dsimp only at h1
      refine (h1 ?_).mono fun n h => ?_
      · rintro rfl; exact hn rfl
      · rw [hfb n, if_neg hf, h]
        rcases x with e | o
        · rfl
        · cases o <;> rfl

include hev hfb hI in
theorem streamKwA_ev (data st pos) (s : σ) (hs : I s) (hn : (streamKwA env data st pos s).1 ≠ .error .recursion) :
    Evt fun n => streamKwA (envs n) data st pos t = ((streamKwA env data st pos s).1, t) := by
  unfold streamKwA at hn ⊢
  generalize (st.pop 1).1 = popped at hn ⊢
  rcases popped with _ | ⟨⟨q, o⟩, _ | ⟨_, _⟩⟩
  · exact .all fun _ => rfl
  · dsimp only at hn ⊢
    have h1 := dictValue_ev env envs I t hev o s hs
    have h2 := dictValue_inv env I hI o s hs
    generalize env.dictValue o s = rr at *
    obtain ⟨x, s1⟩ := rr
    try dsimp only at h1 h2
    have h1 := h1 (by rintro rfl; exact hn rfl)
    rcases x with e | d
    · exact h1.mono fun n h => by rw [h]
    · dsimp only at hn ⊢
      have h4 := objlen_ev env envs I t hfb hev d s1 h2
      generalize env.objlen d s1 = rr at *
      obtain ⟨x, s2⟩ := rr
      try dsimp only at h4
      have h4 := h4 (by rintro rfl; exact hn rfl)
      rcases x with e | l
      · exact (h1.and h4).mono fun n h => by rw [h.1]; dsimp only; rw [h.2]
      · refine (h1.and h4).mono fun n h => ?_
        rw [h.1]; dsimp only; rw [h.2]; dsimp only
        have hb : ∀ p dd l, streamBodyA (envs n) data p dd l = streamBodyA env data p dd l := by
          intros; unfold streamBodyA; rw [hfb]
        rcases takeLine false (data.drop pos) with _ | ⟨line, rest⟩
        · rfl
        · dsimp only
          rw [hb]
          rcases streamBodyA env data _ _ _ with _ | ⟨p, st⟩ <;> rfl
  · exact .all fun _ => rfl

include hev hfb hI in
theorem nextA_ev (data) (fuel : Nat) (w st) (s : σ) (hs : I s) (hn : (nextA env data fuel w st s).1 ≠ .error .recursion) :
    Evt fun n => ∀ m, fuel ≤ m → nextA (envs n) data m w st t = ((nextA env data fuel w st s).1, t) := by
  induction fuel generalizing w st s with
  | zero => exact absurd rfl hn
  | succ fuel ih =>
    have key : ∀ (p : Nat → Nat → Prop), (Evt fun n => ∀ m, fuel ≤ m → p n (m + 1)) → Evt fun n => ∀ m, fuel + 1 ≤ m → p n m := by
      intro p hp
      refine hp.mono fun n h m hm => ?_
      obtain ⟨m, rfl⟩ : ∃ j, m = j + 1 := ⟨m - 1, by omega⟩
      exact h m (by omega)
    apply key
    unfold nextA at hn ⊢
    rcases hres : st.results with _ | ⟨r, rs⟩
    · rw [hres] at hn
      dsimp only at hn ⊢
      rcases w with ⟨_ | ⟨⟨pos, tok⟩, ts⟩, e⟩
      · exact .all fun _ _ _ => rfl
      · dsimp only at hn ⊢
        by_cases hk : tok = .kw kwStream
        · rw [if_pos hk] at hn
          have h1 := streamKwA_ev env envs I t hfb hI hev data st pos s hs
          have h2 := streamKwA_inv env I hI data st pos s hs
          generalize streamKwA env data st pos s = rr at *
          obtain ⟨x, s1⟩ := rr
          try dsimp only at h1 h2
          have h1 := h1 (by rintro rfl; exact hn rfl)
          rcases x with e | ⟨w, st⟩
          · exact h1.mono fun n h m hm => by rw [if_pos hk, if_pos hk, h]
          · dsimp only at hn
            exact (h1.and (ih w st s1 h2 hn)).mono fun n h m hm => by
              rw [if_pos hk, if_pos hk, h.1]; exact h.2 m hm
        · rw [if_neg hk] at hn
          rcases hfd : st.feed fileHooks pos tok with e | st'
          · exact .all fun n m _ => by rw [if_neg hk, if_neg hk]
          · rw [hfd] at hn
            dsimp only at hn
            exact (ih _ st' s hs hn).mono fun n h m hm => by
              rw [if_neg hk, if_neg hk]; exact h m hm
    · exact .all fun _ _ _ => rfl

include hev hfb hI in
theorem parseA_ev (data) (fuel : Nat) (w objid) (s : σ) (hs : I s) (hn : (parseA env fuel data w objid s).1 ≠ .error .recursion) :
    Evt fun n => ∀ m, fuel ≤ m → parseA (envs n) m data w objid t = ((parseA env fuel data w objid s).1, t) := by
  rcases w with ⟨_ | ⟨⟨_, t1⟩, _ | ⟨_, _ | ⟨⟨_, t3⟩, ts⟩⟩⟩, e⟩
  · exact .all fun _ _ _ => rfl
  · exact .all fun _ _ _ => rfl
  · exact .all fun _ _ _ => rfl
  · dsimp only [parseA] at hn ⊢
    have hfix : ∀ m, fuel ≤ m → Le (fixA fuel (ts, e) t1 t3 objid) (fixA m (ts, e) t1 t3 objid) := fun m hm => fixA_le fuel m hm _ _ _ _
    rcases hx : fixA fuel (ts, e) t1 t3 objid with e1 | ⟨w, objid1, kwd⟩
    · rw [hx] at hfix hn
      refine .all fun n m hm => ?_
      rcases hfix m hm with h | h
      · cases h; exact absurd rfl hn
      · rw [← h]
    · rw [hx] at hfix hn
      dsimp only [finishA] at hn ⊢
      have hfix' : ∀ m, fuel ≤ m → fixA m (ts, e) t1 t3 objid = .ok (w, objid1, kwd) := fun m hm => by
        rcases hfix m hm with h | h
        · cases h
        · exact h.symm
      by_cases c1 : ¬ objid1.isNum objid
      · exact .all fun n m hm => by rw [hfix' m hm]; dsimp only; rw [if_pos c1, if_pos c1]
      · rw [if_neg c1] at hn
        by_cases c2 : kwd ≠ .kw kwObj
        · exact .all fun n m hm => by rw [hfix' m hm]; dsimp only; rw [if_neg c1, if_pos c2, if_neg c1, if_pos c2]
        · rw [if_neg c2] at hn
          have h1 := nextA_ev env envs I t hfb hI hev data fuel w {} s hs
          generalize nextA env data fuel w {} s = rr at *
          obtain ⟨x, s1⟩ := rr
          try dsimp only at h1
          have h1 := h1 (by rintro rfl; exact hn rfl)
          exact h1.mono fun n h m hm => by
            rw [hfix' m hm]; dsimp only; rw [if_neg c1, if_neg c2, if_neg c1, if_neg c2, h m hm]
            rcases x with e | ⟨_, _⟩ <;> rfl
end evt

end Pdf
