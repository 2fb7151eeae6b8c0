import Verif.Proofs.Document
/-! Looking up objects with and without the caches. -/

namespace Pdf
open Spec

section tag
variable (get : Get) (I : Cache → Prop) (hI : ∀ i s, I s → I (get i s).2)
include hI

theorem resolveTag_inv (fuel o tag s) (hs : I s) : I (resolveTag get fuel o tag s).2 := by
  induction fuel generalizing o tag s with
  | zero => unfold resolveTag; split <;> exact hs
  | succ fuel ih =>
    unfold resolveTag
    split
    · rename_i i _
      have h1 := hI i s hs
      generalize get i s = r at *
      obtain ⟨_ | ⟨o, g⟩, s1⟩ := r
      · dsimp only; split <;> exact h1
      · exact ih _ _ _ h1
    · exact hs

theorem resolve1_inv (fuel o s) (hs : I s) : I (resolve1 get fuel o s).2 := by
  have := resolveTag_inv get I hI fuel o none s hs
  unfold resolve1
  generalize resolveTag get fuel o none s = r at *
  obtain ⟨_ | ⟨o, g⟩, s1⟩ := r <;> exact this

theorem resolveTag_prov (Q : Obj → Int × Int → Prop) (hQ : ∀ i s o g, I s → (get i s).1 = .ok (o, g) → Q o (i, g))
    (fuel o tag s) (hs : I s) (h0 : ∀ p, tag = some p → Q o p) (o' tag') (hr : (resolveTag get fuel o tag s).1 = .ok (o', tag')) :
    (∀ p, tag' = some p → Q o' p) ∧ (tag' = none → tag = none ∨ o' = .null) := by
  induction fuel generalizing o tag s with
  | zero =>
    unfold resolveTag at hr
    split at hr
    · cases hr
    · cases hr; exact ⟨h0, fun h => Or.inl h⟩
  | succ fuel ih =>
    unfold resolveTag at hr
    split at hr
    · rename_i i _
      have h1 := hI i s hs
      have h2 := hQ i s
      generalize get i s = r at *
      obtain ⟨e | ⟨o, g⟩, s1⟩ := r
      · dsimp only at hr
        split at hr
        · cases hr; exact ⟨(fun p hp => by cases hp), fun _ => Or.inr rfl⟩
        · cases hr
      · dsimp only at hr
        have := ih o (some (i, g)) s1 h1 (fun p hp => by cases hp; exact h2 o g hs rfl) hr
        refine ⟨this.1, fun h => ?_⟩
        rcases this.2 h with h | h
        · cases h
        · exact Or.inr h
    · cases hr; exact ⟨h0, fun h => Or.inl h⟩

end tag

section le
variable (get get' : Get) (I J : Cache → Prop) (hI : ∀ i s, I s → I (get i s).2) (hJ : ∀ i s, J s → J (get' i s).2)
  (hle : ∀ i s t, I s → J t → Le (get i s).1 (get' i t).1)
include hI hJ hle

theorem resolveTag_le (fuel fuel' : Nat) (hf : fuel ≤ fuel') (o tag s t) (hs : I s) (ht : J t) :
    Le (resolveTag get fuel o tag s).1 (resolveTag get' fuel' o tag t).1 := by
  induction fuel generalizing fuel' o tag s t with
  | zero =>
    cases fuel' with
    | zero => cases o <;> exact Or.inr rfl
    | succ n => cases o <;> first | exact Or.inl rfl | exact Or.inr rfl
  | succ fuel ih =>
    obtain ⟨fuel', rfl⟩ : ∃ j, fuel' = j + 1 := ⟨fuel' - 1, by omega⟩
    unfold resolveTag
    split
    · rename_i i _
      have h1 := hI i s hs
      have h2 := hJ i t ht
      have h3 := hle i s t hs ht
      generalize get i s = r at *
      generalize get' i t = r' at *
      obtain ⟨x, s1⟩ := r
      obtain ⟨y, t1⟩ := r'
      rcases h3 with h3 | h3
      · dsimp only at h3; subst h3; exact Or.inl rfl
      · dsimp only at h3; subst h3
        rcases x with e | ⟨o, g⟩
        · dsimp only; split <;> exact Or.inr rfl
        · exact ih fuel' (by omega) _ _ _ _ h1 h2
    · exact Or.inr rfl

theorem resolve1_le (fuel fuel' : Nat) (hf : fuel ≤ fuel') (o s t) (hs : I s) (ht : J t) :
    Le (resolve1 get fuel o s).1 (resolve1 get' fuel' o t).1 := by
  have := resolveTag_le get get' I J hI hJ hle fuel fuel' hf o none s t hs ht
  unfold resolve1
  generalize resolveTag get fuel o none s = r at *
  generalize resolveTag get' fuel' o none t = r' at *
  obtain ⟨x, s1⟩ := r
  obtain ⟨y, t1⟩ := r'
  rcases this with h3 | h3
  · dsimp only at h3; subst h3; exact Or.inl rfl
  · dsimp only at h3; subst h3
    rcases x with e | ⟨o, g⟩ <;> exact Or.inr rfl

theorem loadOffset_le (D : Doc) (hb : 0 < D.bufsiz) (fuel fuel' : Nat) (hf : fuel ≤ fuel') (pos gen objid s t) (hs : I s) (ht : J t) :
    Le (loadOffset D get fuel pos gen objid s).1 (loadOffset D get' fuel' pos gen objid t).1 := by
  unfold loadOffset
  split
  · exact Or.inr rfl
  · rw [getobjParse_eq hb, getobjParse_eq hb]
    have := parseA_le ⟨D.fallback, resolve1 get fuel⟩ ⟨D.fallback, resolve1 get' fuel'⟩ I J rfl
      (fun o s hs => resolve1_inv get I hI fuel o s hs) (fun o s hs => resolve1_inv get' J hJ fuel' o s hs)
      (fun o s t hs ht => resolve1_le get get' I J hI hJ hle fuel fuel' hf o s t hs ht) D.data fuel fuel' hf
      (lexRun {} pos.toNat (D.data.drop pos.toNat)) objid s t hs ht
    generalize parseA _ _ _ _ _ s = r at *
    generalize parseA _ _ _ _ _ t = r' at *
    obtain ⟨x, s1⟩ := r
    obtain ⟨y, t1⟩ := r'
    rcases this with h3 | h3
    · dsimp only at h3; subst h3; exact Or.inl rfl
    · dsimp only at h3; subst h3
      rcases x with e | o
      · exact Or.inr rfl
      · dsimp only
        rcases D.decipher with _ | f <;> exact Or.inr rfl
end le

theorem loadOffset_inv (D : Doc) (hb : 0 < D.bufsiz) (get : Get) (I : Cache → Prop) (hI : ∀ i s, I s → I (get i s).2)
    (fuel pos gen objid s) (hs : I s) : I (loadOffset D get fuel pos gen objid s).2 := by
  unfold loadOffset
  split
  · exact hs
  · rw [getobjParse_eq hb]
    have := parseA_inv ⟨D.fallback, resolve1 get fuel⟩ I (fun o s hs => resolve1_inv get I hI fuel o s hs) fuel D.data
      (lexRun {} pos.toNat (D.data.drop pos.toNat)) objid s hs
    generalize parseA _ _ _ _ _ s = r at *
    obtain ⟨e | o, s1⟩ := r
    · exact this
    · dsimp only
      rcases D.decipher with _ | f <;> exact this

section evt
variable (get : Get) (gets : Nat → Get) (I : Cache → Prop) (hI : ∀ i s, I s → I (get i s).2)
  (hev : ∀ i s, I s → (get i s).1 ≠ .error .recursion → Evt fun n => gets n i {} = ((get i s).1, {}))
include hI hev

theorem resolveTag_ev (fuel o tag s) (hs : I s) (hn : (resolveTag get fuel o tag s).1 ≠ .error .recursion) :
    Evt fun n => ∀ m, fuel ≤ m → resolveTag (gets n) m o tag {} = ((resolveTag get fuel o tag s).1, {}) := by
  induction fuel generalizing o tag s with
  | zero =>
    cases o with
    | ref i g => exact absurd rfl hn
    | _ => exact .all fun n m _ => by cases m <;> rfl
  | succ fuel ih =>
    have key : ∀ (p : Nat → Nat → Prop), (Evt fun n => ∀ m, fuel ≤ m → p n (m + 1)) → Evt fun n => ∀ m, fuel + 1 ≤ m → p n m := by
      intro p hp
      refine hp.mono fun n h m hm => ?_
      obtain ⟨m, rfl⟩ : ∃ j, m = j + 1 := ⟨m - 1, by omega⟩
      exact h m (by omega)
    apply key
    unfold resolveTag at hn ⊢
    cases o with
    | ref i g =>
      dsimp only at hn ⊢
      have h1 := hI i s hs
      have h2 := hev i s hs
      generalize get i s = r at *
      obtain ⟨x, s1⟩ := r
      have h2 := h2 (by rintro rfl; exact hn rfl)
      rcases x with e | ⟨o, g⟩
      · refine h2.mono fun n h m _ => ?_
        rw [h]
        dsimp only
        split <;> rfl
      · dsimp only at hn h1 ⊢
        exact (h2.and (ih o _ s1 h1 hn)).mono fun n h m hm => by rw [h.1]; exact h.2 m hm
    | _ => exact .all fun _ _ _ => rfl

theorem resolve1_ev (fuel o s) (hs : I s) (hn : (resolve1 get fuel o s).1 ≠ .error .recursion) :
    Evt fun n => ∀ m, fuel ≤ m → resolve1 (gets n) m o {} = ((resolve1 get fuel o s).1, {}) := by
  have := resolveTag_ev get gets I hI hev fuel o none s hs
  unfold resolve1 at hn ⊢
  generalize resolveTag get fuel o none s = r at *
  obtain ⟨x, s1⟩ := r
  refine (this (by rintro rfl; exact hn rfl)).mono fun n h m hm => ?_
  rw [h m hm]
  rcases x with e | ⟨o, g⟩ <;> rfl

theorem loadOffset_ev (D : Doc) (hb : 0 < D.bufsiz) (fuel pos gen objid s) (hs : I s)
    (hn : (loadOffset D get fuel pos gen objid s).1 ≠ .error .recursion) :
    Evt fun n => loadOffset D (gets n) n pos gen objid {} = ((loadOffset D get fuel pos gen objid s).1, {}) := by
  unfold loadOffset at hn ⊢
  by_cases hp : pos < 0
  · exact .all fun n => by rw [if_pos hp, if_pos hp]
  · rw [if_neg hp, getobjParse_eq hb] at hn
    have := parseA_ev ⟨D.fallback, resolve1 get fuel⟩ (fun n => ⟨D.fallback, resolve1 (gets n) n⟩) I {} (fun _ => rfl)
      (fun o s hs => resolve1_inv get I hI fuel o s hs)
      (fun o s hs hn => ((resolve1_ev get gets I hI hev fuel o s hs hn).and (Evt.ge fuel)).mono fun n h => h.1 n h.2) D.data fuel
      (lexRun {} pos.toNat (D.data.drop pos.toNat)) objid s hs
    rw [if_neg hp, getobjParse_eq hb]
    generalize parseA _ _ _ _ _ s = r at *
    obtain ⟨x, s1⟩ := r
    refine ((this (by rintro rfl; exact hn rfl)).and (Evt.ge fuel)).mono fun n h => ?_
    rw [if_neg hp, getobjParse_eq hb, h.1 n h.2]
    rcases x with e | o
    · rfl
    · dsimp only
      rcases D.decipher with _ | f <;> rfl
end evt

/-! ### Object streams -/

/-- The stream of `loadObjstm`. -/
def loadTag (get : Get) (fuel : Nat) (strmid : Int) (s : Cache) : Except PyErr (Obj × Option (Int × Int)) × Cache :=
  match get strmid s with
  | (.error e, s) => (.error e, s)
  | (.ok (o, gen), s) => resolveTag get fuel o (some (strmid, gen)) s

theorem loadObjstm_eq (D : Doc) (c : Bool) (get : Get) (fuel strmid index s) :
    loadObjstm D c get fuel strmid index s =
      match loadTag get fuel strmid s with
      | (.error e, s) => (.error e, s)
      | (.ok (o, tag), s) => getobjObjstm D c (asStream o tag).1 (asStream o tag).2.1 (asStream o tag).2.2 index s := by
  unfold loadObjstm loadTag
  rcases get strmid s with ⟨_ | ⟨o, g⟩, s1⟩ <;> rfl

/-- `getobjObjstm` without cache. -/
def objstm (D : Doc) (tag : Option (Int × Int)) (d : List (Key × Obj)) (raw : Bytes) (index : Int) : Except PyErr Obj :=
  match getObjects D tag d raw with
  | .error e => .error e
  | .ok (objs, n) => objAt objs n index

theorem getobjObjstm_false (D : Doc) (tag d raw index) : getobjObjstm D false tag d raw index {} = (objstm D tag d raw index, {}) := by
  unfold getobjObjstm objstm
  have : dictGet ({} : Cache).parsed (tag.map Prod.fst) = none := rfl
  rw [this]
  rcases getObjects D tag d raw with _ | ⟨objs, n⟩ <;> rfl

theorem loadTag_inv (get : Get) (I : Cache → Prop) (hI : ∀ i s, I s → I (get i s).2) (fuel strmid s) (hs : I s) :
    I (loadTag get fuel strmid s).2 := by
  have h1 := hI strmid s hs
  unfold loadTag
  generalize get strmid s = r at *
  obtain ⟨_ | ⟨o, g⟩, s1⟩ := r
  · exact h1
  · exact resolveTag_inv get I hI _ _ _ _ h1

theorem loadTag_le (get get' : Get) (I J : Cache → Prop) (hI : ∀ i s, I s → I (get i s).2) (hJ : ∀ i s, J s → J (get' i s).2)
    (hle : ∀ i s t, I s → J t → Le (get i s).1 (get' i t).1) (fuel fuel' : Nat) (hf : fuel ≤ fuel') (strmid s t) (hs : I s) (ht : J t) :
    Le (loadTag get fuel strmid s).1 (loadTag get' fuel' strmid t).1 := by
  have h1 := hI strmid s hs
  have h2 := hJ strmid t ht
  have h3 := hle strmid s t hs ht
  unfold loadTag
  generalize get strmid s = r at *
  generalize get' strmid t = r' at *
  obtain ⟨x, s1⟩ := r
  obtain ⟨y, t1⟩ := r'
  rcases h3 with h3 | h3
  · dsimp only at h3; subst h3; exact Or.inl rfl
  · dsimp only at h3; subst h3
    rcases x with e | ⟨o, g⟩
    · exact Or.inr rfl
    · exact resolveTag_le get get' I J hI hJ hle fuel fuel' hf _ _ _ _ h1 h2

theorem loadTag_ev (get : Get) (gets : Nat → Get) (I : Cache → Prop) (hI : ∀ i s, I s → I (get i s).2)
    (hev : ∀ i s, I s → (get i s).1 ≠ .error .recursion → Evt fun n => gets n i {} = ((get i s).1, {}))
    (fuel strmid s) (hs : I s) (hn : (loadTag get fuel strmid s).1 ≠ .error .recursion) :
    Evt fun n => loadTag (gets n) n strmid {} = ((loadTag get fuel strmid s).1, {}) := by
  have h1 := hI strmid s hs
  have h2 := hev strmid s hs
  unfold loadTag at hn ⊢
  generalize get strmid s = r at *
  obtain ⟨x, s1⟩ := r
  have h2 := h2 (by rintro rfl; exact hn rfl)
  rcases x with e | ⟨o, g⟩
  · exact h2.mono fun n h => by rw [h]
  · exact ((h2.and (resolveTag_ev get gets I hI hev fuel o _ s1 h1 hn)).and (Evt.ge fuel)).mono fun n h => by
      rw [h.1.1]; exact h.1.2 n h.2

theorem loadTag_prov (get : Get) (I : Cache → Prop) (hI : ∀ i s, I s → I (get i s).2) (Q : Obj → Int × Int → Prop)
    (hQ : ∀ i s o g, I s → (get i s).1 = .ok (o, g) → Q o (i, g)) (fuel strmid s) (hs : I s) (o' tag')
    (hr : (loadTag get fuel strmid s).1 = .ok (o', tag')) : (∀ p, tag' = some p → Q o' p) ∧ (tag' = none → o' = .null) := by
  have h1 := hI strmid s hs
  have h2 := hQ strmid s
  unfold loadTag at hr
  generalize get strmid s = r at *
  obtain ⟨x, s1⟩ := r
  rcases x with e | ⟨o, g⟩
  · cases hr
  · have := resolveTag_prov get I hI Q hQ fuel o (some (strmid, g)) s1 h1 (fun p hp => by cases hp; exact h2 o g hs rfl) o' tag' hr
    refine ⟨this.1, fun h => ?_⟩
    rcases this.2 h with h | h
    · cases h
    · exact h

/-! ### Lookup without caches -/

/-- Without caching nothing is ever cached. -/
theorem uncached_state (D : Doc) (hb : 0 < D.bufsiz) (fuel i) : (getobj D false fuel i {}).2 = {} := by
  induction fuel generalizing i with
  | zero => rfl
  | succ fuel ih =>
    have hI : ∀ i s, s = ({} : Cache) → (getobj D false fuel i s).2 = {} := by rintro i s rfl; exact ih i
    have hx : ∀ xs, (searchXrefs D false (getobj D false fuel) fuel i xs {}).2 = {} := by
      intro xs
      induction xs with
      | nil => rfl
      | cons x xs ihx =>
        unfold searchXrefs
        rcases x i with e | p
        · dsimp only; split
          · exact ihx
          · rfl
        · dsimp only
          have hl : (loadEntry D false (getobj D false fuel) fuel i p {}).2 = {} := by
            obtain ⟨strmid, index, gen⟩ := p
            cases strmid with
            | none => exact loadOffset_inv D hb _ (· = {}) hI fuel index gen i {} rfl
            | some strmid =>
              dsimp only [loadEntry]
              rw [loadObjstm_eq]
              have := loadTag_inv _ (· = {}) hI fuel strmid {} rfl
              generalize loadTag _ _ _ {} = r at *
              obtain ⟨e | ⟨o, tag⟩, s1⟩ := r
              · exact this
              · dsimp only at this ⊢; rw [this, getobjObjstm_false]
          generalize loadEntry _ _ _ _ _ _ {} = r at *
          obtain ⟨e | o, s1⟩ := r
          · dsimp only at hl ⊢; subst hl; split
            · exact ihx
            · rfl
          · exact hl
    unfold getobj
    have h0 : dictGet ({} : Cache).objs i = none := rfl
    rw [h0]
    have := hx D.xrefs
    generalize searchXrefs _ _ _ _ _ _ {} = r at *
    obtain ⟨e | r, s1⟩ := r
    · split
      · rfl
      · split
        · rfl
        · exact this
    · split
      · rfl
      · split
        · rfl
        · exact this

/-- The uncached lookup of an object. -/
def lookup (D : Doc) (fuel : Nat) (i : Int) : Except PyErr (Obj × Int) := (getobj D false fuel i {}).1

theorem uncached_eq (D : Doc) (hb : 0 < D.bufsiz) (fuel i) : getobj D false fuel i {} = (lookup D fuel i, {}) := by
  exact Prod.ext rfl (uncached_state D hb fuel i)

end Pdf
