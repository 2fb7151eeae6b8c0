import Verif.Proofs.Document2
/-! The caches are sound: lookups with and without them agree. -/

namespace Pdf
open Spec

theorem dictGet_set {κ α : Type} [DecidableEq κ] (d : List (κ × α)) (k k' : κ) (v : α) :
    dictGet (dictSet d k v) k' = if k = k' then some v else dictGet d k' := by
  induction d with
  | nil => simp [dictSet, dictGet]
  | cons p d ih =>
    obtain ⟨k1, v1⟩ := p
    simp only [dictSet, dictGet]
    by_cases h1 : k1 = k
    · subst h1
      simp only [if_true, dictGet]
      split <;> rfl
    · rw [if_neg h1]
      simp only [dictGet]
      rw [ih]
      by_cases h2 : k1 = k'
      · subst h2; rw [if_pos rfl, if_pos rfl, if_neg (fun h => h1 h.symm)]
      · rw [if_neg h2, if_neg h2]

theorem Le.trans {α : Type} {x y z : Except PyErr α} (h1 : Le x y) (h2 : Le y z) : Le x z := by
  rcases h1 with h | h
  · exact Or.inl h
  · rw [h]; exact h2

section search
variable (D : Doc) (c c' : Bool) (get get' : Get) (I J : Cache → Prop) (fuel fuel' : Nat) (i : Int)
  (hI : ∀ p s, I s → I (loadEntry D c get fuel i p s).2) (hJ : ∀ p s, J s → J (loadEntry D c' get' fuel' i p s).2)
  (hle : ∀ p s t, I s → J t → Le (loadEntry D c get fuel i p s).1 (loadEntry D c' get' fuel' i p t).1)

include hI in
theorem search_inv (xs s) (hs : I s) : I (searchXrefs D c get fuel i xs s).2 := by
  induction xs generalizing s with
  | nil => exact hs
  | cons x xs ih =>
    unfold searchXrefs
    rcases x i with e | p
    · dsimp only; split
      · exact ih s hs
      · exact hs
    · dsimp only
      have h1 := hI p s hs
      generalize loadEntry D c get fuel i p s = r at *
      obtain ⟨e | o, s1⟩ := r
      · dsimp only; split
        · exact ih s1 h1
        · exact h1
      · exact h1

include hI hJ hle in
theorem search_le (xs s t) (hs : I s) (ht : J t) :
    Le (searchXrefs D c get fuel i xs s).1 (searchXrefs D c' get' fuel' i xs t).1 := by
  induction xs generalizing s t with
  | nil => exact Or.inr rfl
  | cons x xs ih =>
    unfold searchXrefs
    rcases x i with e | p
    · dsimp only; split
      · exact ih s t hs ht
      · exact Or.inr rfl
    · dsimp only
      have h1 := hI p s hs
      have h2 := hJ p t ht
      have h3 := hle p s t hs ht
      generalize loadEntry D c get fuel i p s = r at *
      generalize loadEntry D c' get' fuel' i p t = r' at *
      obtain ⟨x, s1⟩ := r
      obtain ⟨y, t1⟩ := r'
      rcases h3 with h3 | h3
      · dsimp only at h3; subst h3; exact Or.inl rfl
      · dsimp only at h3; subst h3
        rcases x with e | o
        · dsimp only; split
          · exact ih _ _ h1 h2
          · exact Or.inr rfl
        · exact Or.inr rfl
end search

theorem search_ev (D : Doc) (c : Bool) (get : Get) (gets : Nat → Get) (I : Cache → Prop) (fuel : Nat) (i : Int)
    (hI : ∀ p s, I s → I (loadEntry D c get fuel i p s).2)
    (hev : ∀ p s, I s → (loadEntry D c get fuel i p s).1 ≠ .error .recursion →
      Evt fun n => loadEntry D false (gets n) n i p {} = ((loadEntry D c get fuel i p s).1, {}))
    (xs s) (hs : I s) (hn : (searchXrefs D c get fuel i xs s).1 ≠ .error .recursion) :
    Evt fun n => searchXrefs D false (gets n) n i xs {} = ((searchXrefs D c get fuel i xs s).1, {}) := by
  induction xs generalizing s with
  | nil => exact .all fun _ => rfl
  | cons x xs ih =>
    unfold searchXrefs at hn ⊢
    rcases hx : x i with e | p
    · rw [hx] at hn
      dsimp only at hn ⊢
      by_cases he : e = .keyError
      · rw [if_pos he] at hn
        exact (ih s hs hn).mono fun n h => by rw [if_pos he, if_pos he, h]
      · exact .all fun n => by rw [if_neg he, if_neg he]
    · rw [hx] at hn
      dsimp only at hn ⊢
      have h1 := hI p s hs
      have h2 := hev p s hs
      generalize loadEntry D c get fuel i p s = r at *
      obtain ⟨x, s1⟩ := r
      have h2 := h2 (by rintro rfl; exact hn rfl)
      rcases x with e | o
      · dsimp only at hn h1 ⊢
        by_cases he : e = .psEOF ∨ e = .pdfSyntaxError
        · rw [if_pos he] at hn
          exact (h2.and (ih s1 h1 hn)).mono fun n h => by rw [h.1]; dsimp only; rw [if_pos he, if_pos he, h.2]
        · exact h2.mono fun n h => by rw [h]; dsimp only; rw [if_neg he, if_neg he]
      · exact h2.mono fun n h => by rw [h]

theorem getobj_succ (D : Doc) (c : Bool) (fuel : Nat) (i : Int) (s : Cache) : getobj D c (fuel + 1) i s =
    if i = 0 then (.error .assertion, s)
    else if D.xrefs.isEmpty then (.error .other, s)
    else match dictGet s.objs i with
      | some r => (.ok r, s)
      | none =>
        match searchXrefs D c (getobj D c fuel) fuel i D.xrefs s with
        | (.ok r, s) => (.ok r, if c then { s with objs := dictSet s.objs i r } else s)
        | (.error e, s) => (.error e, s) := rfl

/-- More fuel gives the same result. -/
theorem lookup_mono (D : Doc) (hb : 0 < D.bufsiz) (fuel fuel' : Nat) (hf : fuel ≤ fuel') (i) : Le (lookup D fuel i) (lookup D fuel' i) := by
  induction fuel generalizing fuel' i with
  | zero => exact Or.inl rfl
  | succ fuel ih =>
    obtain ⟨fuel', rfl⟩ : ∃ j, fuel' = j + 1 := ⟨fuel' - 1, by omega⟩
    have hI : ∀ f i s, s = ({} : Cache) → (getobj D false f i s).2 = {} := by
      rintro f i s rfl; exact uncached_state D hb f i
    have hg : ∀ i s t, s = {} → t = {} → Le (getobj D false fuel i s).1 (getobj D false fuel' i t).1 := by
      rintro i s t rfl rfl; exact ih fuel' (by omega) i
    have hE : ∀ f p s, s = ({} : Cache) → (loadEntry D false (getobj D false f) f i p s).2 = {} := by
      rintro f ⟨_ | strm, index, gen⟩ s hs
      · exact loadOffset_inv D hb _ (· = {}) (hI f) f index gen i s hs
      · dsimp only [loadEntry]
        rw [loadObjstm_eq]
        have := loadTag_inv _ (· = {}) (hI f) f strm s hs
        generalize loadTag _ _ _ s = r at *
        obtain ⟨e | ⟨o, tag⟩, s1⟩ := r
        · exact this
        · dsimp only at this ⊢; rw [this, getobjObjstm_false]
    have hle : ∀ p s t, s = {} → t = {} → Le (loadEntry D false (getobj D false fuel) fuel i p s).1 (loadEntry D false (getobj D false fuel') fuel' i p t).1 := by
      rintro ⟨_ | strm, index, gen⟩ s t hs ht
      · exact loadOffset_le _ _ (· = {}) (· = {}) (hI fuel) (hI fuel') hg D hb fuel fuel' (by omega) index gen i s t hs ht
      · dsimp only [loadEntry]
        rw [loadObjstm_eq, loadObjstm_eq]
        have h1 := loadTag_inv _ (· = {}) (hI fuel) fuel strm s hs
        have h2 := loadTag_inv _ (· = {}) (hI fuel') fuel' strm t ht
        have h3 := loadTag_le _ _ (· = {}) (· = {}) (hI fuel) (hI fuel') hg fuel fuel' (by omega) strm s t hs ht
        generalize loadTag _ _ _ s = r at *
        generalize loadTag _ _ _ t = r' at *
        obtain ⟨x, s1⟩ := r
        obtain ⟨y, t1⟩ := r'
        dsimp only at h1 h2 h3
        subst h1 h2
        rcases h3 with h3 | h3
        · subst h3; exact Or.inl rfl
        · subst h3
          rcases x with e | ⟨o, tag⟩ <;> exact Or.inr rfl
    have := search_le D false false _ _ (· = {}) (· = {}) fuel fuel' i (hE fuel) (hE fuel') hle D.xrefs {} {} rfl rfl
    unfold lookup getobj
    have h0 : dictGet ({} : Cache).objs i = none := rfl
    rw [h0]
    split
    · exact Or.inr rfl
    · split
      · exact Or.inr rfl
      · dsimp only
        generalize searchXrefs D false (getobj D false fuel) _ _ _ {} = r at *
        generalize searchXrefs D false (getobj D false fuel') _ _ _ {} = r' at *
        obtain ⟨x, s1⟩ := r
        obtain ⟨y, t1⟩ := r'
        rcases this with h3 | h3
        · dsimp only at h3; subst h3; exact Or.inl rfl
        · dsimp only at h3; subst h3
          rcases x with e | o <;> exact Or.inr rfl

/-- What is in the caches is what lookups without caches find. -/
structure Sound (D : Doc) (s : Cache) : Prop where
  objs : ∀ i r, dictGet s.objs i = some r → Evt fun n => lookup D n i = .ok r
  none : ∀ v, dictGet s.parsed none = some v → getObjects D none [] [] = .ok v
  some : ∀ i v, dictGet s.parsed (some i) = some v →
    Evt fun n => ∃ d raw g, lookup D n i = .ok (.stream d raw, g) ∧ getObjects D (some (i, g)) d raw = .ok v

theorem sound_empty (D : Doc) : Sound D {} := ⟨fun _ _ h => (by cases h), fun _ h => (by cases h), fun _ _ h => (by cases h)⟩

/-- Objects from object streams. -/
theorem objstm_sound (D : Doc) (s : Cache) (hs : Sound D s) (o tag) (index : Int)
    (hp : ∀ p, tag = some p → Evt fun n => lookup D n p.1 = .ok (o, p.2)) (hnull : tag = none → o = .null) :
    (getobjObjstm D true (asStream o tag).1 (asStream o tag).2.1 (asStream o tag).2.2 index s).1 =
      objstm D (asStream o tag).1 (asStream o tag).2.1 (asStream o tag).2.2 index ∧
    Sound D (getobjObjstm D true (asStream o tag).1 (asStream o tag).2.1 (asStream o tag).2.2 index s).2 := by
  have main : ∀ tg d raw, (∀ v, dictGet s.parsed (tg.map Prod.fst) = .some v → getObjects D tg d raw = .ok v) →
      (∀ v, getObjects D tg d raw = .ok v → Sound D { s with parsed := dictSet s.parsed (tg.map Prod.fst) v }) →
      (getobjObjstm D true tg d raw index s).1 = objstm D tg d raw index ∧ Sound D (getobjObjstm D true tg d raw index s).2 := by
    intro tg d raw h1 h2
    unfold getobjObjstm objstm
    rcases hg : dictGet s.parsed (tg.map Prod.fst) with _ | ⟨objs, n⟩
    · dsimp only
      rcases hq : getObjects D tg d raw with e | ⟨objs, n⟩
      · exact ⟨rfl, hs⟩
      · exact ⟨rfl, h2 _ hq⟩
    · dsimp only
      rw [h1 _ hg]
      exact ⟨rfl, hs⟩
  have hnone : ∀ tg : Option (Int × Int), tg = none → ∀ v, getObjects D none [] [] = .ok v →
      Sound D { s with parsed := dictSet s.parsed (tg.map Prod.fst) v } := by
    rintro _ rfl v hv
    refine ⟨hs.objs, fun v' h => ?_, fun i v' h => ?_⟩
    · simp only [Option.map_none] at h
      rw [dictGet_set, if_pos rfl] at h; cases h; exact hv
    · simp only [Option.map_none] at h
      rw [dictGet_set, if_neg (by simp)] at h; exact hs.some i v' h
  have hnon : asStream o tag = (none, [], []) → (getobjObjstm D true (asStream o tag).1 (asStream o tag).2.1 (asStream o tag).2.2 index s).1 =
      objstm D (asStream o tag).1 (asStream o tag).2.1 (asStream o tag).2.2 index ∧
      Sound D (getobjObjstm D true (asStream o tag).1 (asStream o tag).2.1 (asStream o tag).2.2 index s).2 := by
    intro h
    rw [h]
    exact main none [] [] (fun v h => hs.none v h) (fun v h => hnone none rfl v h)
  cases o with
  | stream d raw =>
    cases tag with
    | none => cases hnull rfl
    | some p =>
      obtain ⟨i, g⟩ := p
      have hp := hp (i, g) rfl
      refine main (some (i, g)) d raw (fun v h => ?_) (fun v hv => ?_)
      · obtain ⟨n, h1, d', raw', g', h2, h3⟩ := (hp.and (hs.some i v h)).exists
        rw [h1] at h2
        cases h2
        exact h3
      · refine ⟨hs.objs, fun v' h => ?_, fun i' v' h => ?_⟩
        · simp only [Option.map_some] at h
          rw [dictGet_set, if_neg (by simp)] at h; exact hs.none v' h
        · simp only [Option.map_some] at h
          rw [dictGet_set] at h
          by_cases he : i = i'
          · subst he
            rw [if_pos rfl] at h; cases h
            exact hp.mono fun n hn => ⟨d, raw, g, hn, hv⟩
          · rw [if_neg (by simpa using he)] at h; exact hs.some i' v' h
  | _ => exact hnon rfl

/-- The result of a lookup with caches that ends is found without them too, and the caches stay sound. -/
theorem cached_ev (D : Doc) (hb : 0 < D.bufsiz) (fuel : Nat) (i) (s : Cache) (hs : Sound D s) :
    Sound D (getobj D true fuel i s).2 ∧
      ((getobj D true fuel i s).1 ≠ .error .recursion → Evt fun n => getobj D false n i {} = ((getobj D true fuel i s).1, {})) := by
  induction fuel generalizing i s with
  | zero => exact ⟨hs, fun h => absurd rfl h⟩
  | succ fuel ih =>
    have hI : ∀ i s, Sound D s → Sound D (getobj D true fuel i s).2 := fun i s h => (ih i s h).1
    have hev : ∀ i s, Sound D s → (getobj D true fuel i s).1 ≠ .error .recursion →
        Evt fun n => getobj D false n i {} = ((getobj D true fuel i s).1, {}) := fun i s h => (ih i s h).2
    have hQ : ∀ i s o g, Sound D s → (getobj D true fuel i s).1 = .ok (o, g) → Evt fun n => lookup D n i = .ok (o, g) := by
      intro i s o g h1 h2
      refine (hev i s h1 (by rw [h2]; simp)).mono fun n h => ?_
      rw [h2] at h
      rw [lookup, h]
    have hprov : ∀ fuel' strm s, Sound D s → ∀ o tag, (loadTag (getobj D true fuel) fuel' strm s).1 = .ok (o, tag) →
        (∀ p, tag = some p → Evt fun n => lookup D n p.1 = .ok (o, p.2)) ∧ (tag = none → o = .null) := by
      intro fuel' strm s hs o tag
      exact loadTag_prov _ (Sound D) hI (fun o p => Evt fun n => lookup D n p.1 = .ok (o, p.2)) hQ fuel' strm s hs o tag
    have hEI : ∀ p s, Sound D s → Sound D (loadEntry D true (getobj D true fuel) fuel i p s).2 := by
      rintro ⟨_ | strm, index, gen⟩ s hs
      · exact loadOffset_inv D hb _ (Sound D) hI fuel index gen i s hs
      · dsimp only [loadEntry]
        rw [loadObjstm_eq]
        have h1 := loadTag_inv _ (Sound D) hI fuel strm s hs
        have h2 := hprov fuel strm s hs
        generalize loadTag _ _ _ s = r at *
        obtain ⟨e | ⟨o, tag⟩, s1⟩ := r
        · exact h1
        · obtain ⟨h3, h4⟩ := h2 o tag rfl
          exact (objstm_sound D s1 h1 o tag index h3 h4).2
    have hEE : ∀ p s, Sound D s → (loadEntry D true (getobj D true fuel) fuel i p s).1 ≠ .error .recursion →
        Evt fun n => loadEntry D false (getobj D false n) n i p {} = ((loadEntry D true (getobj D true fuel) fuel i p s).1, {}) := by
      rintro ⟨_ | strm, index, gen⟩ s hs hn
      · exact loadOffset_ev _ _ (Sound D) hI hev D hb fuel index gen i s hs hn
      · dsimp only [loadEntry] at hn ⊢
        rw [loadObjstm_eq] at hn ⊢
        have h0 := loadTag_ev _ (fun n => getobj D false n) (Sound D) hI hev fuel strm s hs
        have h1 := loadTag_inv _ (Sound D) hI fuel strm s hs
        have h2 := hprov fuel strm s hs
        generalize loadTag (getobj D true fuel) _ _ s = r at *
        obtain ⟨x, s1⟩ := r
        have h0 := h0 (by rintro rfl; exact hn rfl)
        rcases x with e | ⟨o, tag⟩
        · exact h0.mono fun n h => by rw [loadObjstm_eq, h]
        · obtain ⟨h3, h4⟩ := h2 o tag rfl
          refine h0.mono fun n h => ?_
          rw [loadObjstm_eq, h]
          dsimp only
          rw [getobjObjstm_false, (objstm_sound D s1 h1 o tag index h3 h4).1]
    rw [getobj_succ]
    by_cases c1 : i = 0
    · rw [if_pos c1]
      exact ⟨hs, fun _ => Evt.succ (.all fun n => by rw [getobj_succ, if_pos c1])⟩
    rw [if_neg c1]
    by_cases c2 : D.xrefs.isEmpty = true
    · rw [if_pos c2]
      exact ⟨hs, fun _ => Evt.succ (.all fun n => by rw [getobj_succ, if_neg c1, if_pos c2])⟩
    rw [if_neg c2]
    rcases hc : dictGet s.objs i with _ | r
    · dsimp only
      have hS := search_inv D true _ (Sound D) fuel i hEI D.xrefs s hs
      have hE := search_ev D true _ (fun n => getobj D false n) (Sound D) fuel i hEI hEE D.xrefs s hs
      generalize searchXrefs D true _ _ _ _ s = r at *
      obtain ⟨x, s1⟩ := r
      have hE' : x ≠ .error .recursion → Evt fun n => getobj D false n i {} = (x, {}) := by
        intro hx
        refine Evt.succ ((hE hx).mono fun n h => ?_)
        rw [getobj_succ, if_neg c1, if_neg c2]
        have h0 : dictGet ({} : Cache).objs i = none := rfl
        rw [h0]
        dsimp only
        rw [h]
        rcases x with e | r <;> rfl
      rcases x with e | r
      · exact ⟨hS, hE'⟩
      · have hr := hE' (by simp)
        refine ⟨⟨fun i' r' h => ?_, hS.none, hS.some⟩, fun _ => hr⟩
        simp only [if_true] at h
        rw [dictGet_set] at h
        by_cases he : i = i'
        · subst he
          rw [if_pos rfl] at h; cases h
          exact hr.mono fun n h => by rw [lookup, h]
        · rw [if_neg he] at h; exact hS.objs i' r' h
    · refine ⟨hs, fun _ => (hs.objs i r hc).mono fun n h => ?_⟩
      rw [uncached_eq D hb, h]

/-- The result of a lookup without caches that ends is found with sound caches too. -/
theorem cached_le (D : Doc) (hb : 0 < D.bufsiz) (fuel : Nat) (i) (s : Cache) (hs : Sound D s) :
    Le (lookup D fuel i) (getobj D true fuel i s).1 := by
  induction fuel generalizing i s with
  | zero => exact Or.inl rfl
  | succ fuel ih =>
    have hI : ∀ i s, Sound D s → Sound D (getobj D true fuel i s).2 := fun i s h => (cached_ev D hb fuel i s h).1
    have hU : ∀ i s, s = ({} : Cache) → (getobj D false fuel i s).2 = {} := by
      rintro i s rfl; exact uncached_state D hb fuel i
    have hle : ∀ i s t, s = {} → Sound D t → Le (getobj D false fuel i s).1 (getobj D true fuel i t).1 := by
      rintro i s t rfl ht; exact ih i t ht
    have hQ : ∀ i s o g, Sound D s → (getobj D true fuel i s).1 = .ok (o, g) → Evt fun n => lookup D n i = .ok (o, g) := by
      intro i s o g h1 h2
      refine ((cached_ev D hb fuel i s h1).2 (by rw [h2]; simp)).mono fun n h => ?_
      rw [h2] at h
      rw [lookup, h]
    have hprov : ∀ fuel' strm s, Sound D s → ∀ o tag, (loadTag (getobj D true fuel) fuel' strm s).1 = .ok (o, tag) →
        (∀ p, tag = some p → Evt fun n => lookup D n p.1 = .ok (o, p.2)) ∧ (tag = none → o = .null) := by
      intro fuel' strm s hs o tag
      exact loadTag_prov _ (Sound D) hI (fun o p => Evt fun n => lookup D n p.1 = .ok (o, p.2)) hQ fuel' strm s hs o tag
    have hEI : ∀ p s, Sound D s → Sound D (loadEntry D true (getobj D true fuel) fuel i p s).2 := by
      rintro ⟨_ | strm, index, gen⟩ s hs
      · exact loadOffset_inv D hb _ (Sound D) hI fuel index gen i s hs
      · dsimp only [loadEntry]
        rw [loadObjstm_eq]
        have h1 := loadTag_inv _ (Sound D) hI fuel strm s hs
        have h2 := hprov fuel strm s hs
        generalize loadTag _ _ _ s = r at *
        obtain ⟨e | ⟨o, tag⟩, s1⟩ := r
        · exact h1
        · obtain ⟨h3, h4⟩ := h2 o tag rfl
          exact (objstm_sound D s1 h1 o tag index h3 h4).2
    have hEU : ∀ p s, s = ({} : Cache) → (loadEntry D false (getobj D false fuel) fuel i p s).2 = {} := by
      rintro ⟨_ | strm, index, gen⟩ s hs
      · exact loadOffset_inv D hb _ (· = {}) hU fuel index gen i s hs
      · dsimp only [loadEntry]
        rw [loadObjstm_eq]
        have := loadTag_inv _ (· = {}) hU fuel strm s hs
        generalize loadTag _ _ _ s = r at *
        obtain ⟨e | ⟨o, tag⟩, s1⟩ := r
        · exact this
        · dsimp only at this ⊢; rw [this, getobjObjstm_false]
    have hEL : ∀ p s t, s = {} → Sound D t → Le (loadEntry D false (getobj D false fuel) fuel i p s).1 (loadEntry D true (getobj D true fuel) fuel i p t).1 := by
      rintro ⟨_ | strm, index, gen⟩ s t hs ht
      · exact loadOffset_le _ _ (· = {}) (Sound D) hU hI hle D hb fuel fuel (Nat.le_refl _) index gen i s t hs ht
      · dsimp only [loadEntry]
        rw [loadObjstm_eq, loadObjstm_eq]
        have h1 := loadTag_inv _ (· = {}) hU fuel strm s hs
        have h2 := loadTag_inv _ (Sound D) hI fuel strm t ht
        have h3 := loadTag_le _ _ (· = {}) (Sound D) hU hI hle fuel fuel (Nat.le_refl _) strm s t hs ht
        have h4 := hprov fuel strm t ht
        generalize loadTag _ _ _ s = r at *
        generalize loadTag _ _ _ t = r' at *
        obtain ⟨x, s1⟩ := r
        obtain ⟨y, t1⟩ := r'
        dsimp only at h1 h2 h3 h4
        subst h1
        rcases h3 with h3 | h3
        · subst h3; exact Or.inl rfl
        · subst h3
          rcases x with e | ⟨o, tag⟩
          · exact Or.inr rfl
          · obtain ⟨h5, h6⟩ := h4 o tag rfl
            dsimp only
            rw [getobjObjstm_false, (objstm_sound D t1 h2 o tag index h5 h6).1]
            exact Or.inr rfl
    have := search_le D false true _ _ (· = {}) (Sound D) fuel fuel i hEU hEI hEL D.xrefs {} s rfl hs
    unfold lookup
    by_cases c1 : i = 0
    · rw [getobj_succ, getobj_succ, if_pos c1, if_pos c1]; exact Or.inr rfl
    by_cases c2 : D.xrefs.isEmpty = true
    · rw [getobj_succ, getobj_succ, if_neg c1, if_pos c2, if_neg c1, if_pos c2]; exact Or.inr rfl
    rcases hc : dictGet s.objs i with _ | r
    · rw [getobj_succ, getobj_succ, if_neg c1, if_neg c2, if_neg c1, if_neg c2, hc]
      have h0 : dictGet ({} : Cache).objs i = none := rfl
      rw [h0]
      dsimp only
      generalize searchXrefs D false _ _ _ _ _ = r at *
      generalize searchXrefs D true _ _ _ _ _ = r' at *
      obtain ⟨x, s1⟩ := r
      obtain ⟨y, t1⟩ := r'
      rcases this with h3 | h3
      · dsimp only at h3; subst h3; exact Or.inl rfl
      · dsimp only at h3; subst h3
        rcases x with e | o <;> exact Or.inr rfl
    · have h1 : getobj D true (fuel + 1) i s = (.ok r, s) := by
        rw [getobj_succ, if_neg c1, if_neg c2, hc]
      rw [h1]
      obtain ⟨n, hn⟩ := hs.objs i r hc
      have := lookup_mono D hb (fuel + 1) (max n (fuel + 1)) (by omega) i
      rw [hn (max n (fuel + 1)) (by omega)] at this
      exact this

end Pdf
