import Verif.Proofs.Document3
import Verif.Props.Stream2
/-! C25 (caches), C26 (sections), C28 (references), C66 (object streams). -/

namespace Pdf
open Spec

/-- What a call `getobj(i)` on a document whose caches are `s` returns or raises, if it ends. -/
def Doc.Yields (D : Doc) (caching : Bool) (s : Cache) (i : Int) (r : Except PyErr (Obj × Int)) : Prop :=
  r ≠ .error .recursion ∧ ∃ fuel, (getobj D caching fuel i s).1 = r

/-- The caches a document can have after any history of calls of `getobj` (also calls cut short). -/
inductive Reach (D : Doc) : Cache → Prop
  | start : Reach D {}
  | call {s} (fuel i) : Reach D s → Reach D (getobj D true fuel i s).2

theorem Reach.sound {D : Doc} (hb : 0 < D.bufsiz) {s : Cache} (h : Reach D s) : Sound D s := by
  induction h with
  | start => exact sound_empty D
  | call fuel i _ ih => exact (cached_ev D hb fuel i _ ih).1

theorem lookup_unique (D : Doc) (hb : 0 < D.bufsiz) {n m : Nat} {i r r'} (h : lookup D n i = r) (hr : r ≠ .error .recursion)
    (h' : lookup D m i = r') (hr' : r' ≠ .error .recursion) : r = r' := by
  have h1 := lookup_mono D hb n (max n m) (by omega) i
  have h2 := lookup_mono D hb m (max n m) (by omega) i
  rw [h] at h1
  rw [h'] at h2
  rcases h1 with h1 | h1
  · exact absurd h1 hr
  · rcases h2 with h2 | h2
    · exact absurd h2 hr'
    · rw [h1, h2]

theorem yields_evt (D : Doc) (hb : 0 < D.bufsiz) {i r} : D.Yields false {} i r ↔ r ≠ .error .recursion ∧ Evt fun n => lookup D n i = r := by
  constructor
  · rintro ⟨hr, n, hn⟩
    refine ⟨hr, n, fun k hk => ?_⟩
    rcases lookup_mono D hb n k hk i with h | h
    · exact absurd (hn.symm.trans h) hr
    · rw [← h]; exact hn
  · rintro ⟨hr, h⟩
    exact ⟨hr, h.exists⟩

/-- C25. After any history of calls, `getobj` with caching returns (or raises) exactly what it would return on a fresh
document without caching, and ends if and only if that ends. -/
theorem cache_transparency (D : Doc) (hb : 0 < D.bufsiz) {s : Cache} (hs : Reach D s) (i : Int) (r : Except PyErr (Obj × Int)) :
    D.Yields true s i r ↔ D.Yields false {} i r := by
  have hS := hs.sound hb
  constructor
  · rintro ⟨hr, n, hn⟩
    refine ⟨hr, ?_⟩
    obtain ⟨m, hm⟩ := ((cached_ev D hb n i s hS).2 (by rw [hn]; exact hr)).exists
    exact ⟨m, by rw [hm, hn]⟩
  · rintro ⟨hr, n, hn⟩
    refine ⟨hr, n, ?_⟩
    rcases cached_le D hb n i s hS with h | h
    · exact absurd (hn.symm.trans h) hr
    · rw [← h]; exact hn

/-- C25. There is one answer. -/
theorem answer_unique (D : Doc) (hb : 0 < D.bufsiz) {s s' : Cache} (hs : Reach D s) (hs' : Reach D s') (i : Int) (r r')
    (h : D.Yields true s i r) (h' : D.Yields true s' i r') : r = r' := by
  rw [cache_transparency D hb hs] at h
  rw [cache_transparency D hb hs'] at h'
  obtain ⟨hr, n, hn⟩ := h
  obtain ⟨hr', m, hm⟩ := h'
  exact lookup_unique D hb hn hr hm hr'

/-- C25. Calling again gives the same. -/
theorem asking_twice (D : Doc) (hb : 0 < D.bufsiz) {s : Cache} (hs : Reach D s) (i : Int) (r) (h : D.Yields true s i r) (fuel j) :
    D.Yields true (getobj D true fuel j s).2 i r := by
  rw [cache_transparency D hb (Reach.call fuel j hs), ← cache_transparency D hb hs]
  exact h

/-! ### Sections -/

/-- What reading the place `p` of object `i` gives. -/
def Doc.ReadsAt (D : Doc) (i : Int) (p : XPos) (r : Except PyErr Obj) : Prop :=
  Evt fun n => (loadEntry D false (getobj D false n) n i p {}).1 = r

theorem loadEntry_state (D : Doc) (hb : 0 < D.bufsiz) (n i p) : (loadEntry D false (getobj D false n) n i p {}).2 = {} := by
  have hI : ∀ i s, s = ({} : Cache) → (getobj D false n i s).2 = {} := by rintro i s rfl; exact uncached_state D hb n i
  obtain ⟨_ | strm, index, gen⟩ := p
  · exact loadOffset_inv D hb _ (· = {}) hI n index gen i {} rfl
  · dsimp only [loadEntry]
    rw [loadObjstm_eq]
    have := loadTag_inv _ (· = {}) hI n strm {} rfl
    generalize loadTag _ _ _ _ = r at *
    obtain ⟨e | ⟨o, tag⟩, s1⟩ := r
    · exact this
    · dsimp only at this ⊢; rw [this, getobjObjstm_false]

/-- A section that is passed over: it does not have the object, or the object cannot be read there. -/
def Doc.Skips (D : Doc) (i : Int) (x : Int → Except PyErr XPos) : Prop :=
  x i = .error .keyError ∨ ∃ p e, x i = .ok p ∧ D.ReadsAt i p (.error e) ∧ (e = .psEOF ∨ e = .pdfSyntaxError)

theorem search_skip (D : Doc) (hb : 0 < D.bufsiz) (i : Int) (pre post) (h : ∀ x ∈ pre, D.Skips i x) :
    Evt fun n => searchXrefs D false (getobj D false n) n i (pre ++ post) {} = searchXrefs D false (getobj D false n) n i post {} := by
  induction pre with
  | nil => exact .all fun _ => rfl
  | cons x pre ih =>
    have ih := ih fun y hy => h y (List.mem_cons_of_mem _ hy)
    rcases h x List.mem_cons_self with hx | ⟨p, e, hx, hr, he⟩
    · refine ih.mono fun n hn => ?_
      rw [List.cons_append, searchXrefs, hx]
      dsimp only
      rw [if_pos rfl, hn]
    · refine (ih.and hr).mono fun n hn => ?_
      obtain ⟨hn, hl⟩ := hn
      rw [List.cons_append, searchXrefs, hx]
      dsimp only
      have hs := loadEntry_state D hb n i p
      generalize loadEntry _ _ _ _ _ _ _ = r at *
      obtain ⟨y, s1⟩ := r
      dsimp only at hl hs
      subst hl hs
      dsimp only
      rw [if_pos he, hn]

theorem yields_search (D : Doc) (hb : 0 < D.bufsiz) (i : Int) (hi : i ≠ 0) (hx : D.xrefs ≠ []) (r) (hr : r ≠ .error .recursion)
    (h : Evt fun n => (searchXrefs D false (getobj D false n) n i D.xrefs {}).1 = r) : D.Yields false {} i r := by
  obtain ⟨n, hn⟩ := h.exists
  refine ⟨hr, n + 1, ?_⟩
  rw [getobj_succ, if_neg hi, if_neg (by simpa using hx)]
  have h0 : dictGet ({} : Cache).objs i = none := rfl
  rw [h0]
  dsimp only
  generalize searchXrefs _ _ _ _ _ _ _ = q at *
  obtain ⟨e | o, s1⟩ := q <;> exact hn

/-- C26. The object is that of the first (newest) section that has it and where it can be read, whatever the older sections
say. -/
theorem newest_wins (D : Doc) (hb : 0 < D.bufsiz) {s : Cache} (hs : Reach D s) (i : Int) (hi : i ≠ 0) (newer older) (x) (p : XPos) (o : Obj)
    (hx : D.xrefs = newer ++ x :: older) (hskip : ∀ y ∈ newer, D.Skips i y) (hp : x i = .ok p) (ho : D.ReadsAt i p (.ok o)) :
    D.Yields true s i (.ok (o, p.2.2)) := by
  rw [cache_transparency D hb hs]
  refine yields_search D hb i hi (by simp [hx]) _ (by simp) ?_
  refine ((search_skip D hb i newer (x :: older) hskip).and ho).mono fun n hn => ?_
  rw [hx, hn.1, searchXrefs, hp]
  dsimp only
  have hl := hn.2
  generalize loadEntry _ _ _ _ _ _ _ = q at *
  obtain ⟨y, s1⟩ := q
  dsimp only at hl
  subst hl
  rfl

/-- C26. If no section has the object, or none where it can be read, it is reported as missing. -/
theorem missing_object (D : Doc) (hb : 0 < D.bufsiz) {s : Cache} (hs : Reach D s) (i : Int) (hi : i ≠ 0) (hx : D.xrefs ≠ [])
    (hskip : ∀ y ∈ D.xrefs, D.Skips i y) : D.Yields true s i (.error .pdfObjectNotFound) := by
  rw [cache_transparency D hb hs]
  refine yields_search D hb i hi hx _ (by simp) ?_
  have := search_skip D hb i D.xrefs [] hskip
  refine this.mono fun n hn => ?_
  rw [List.append_nil] at hn
  rw [hn]
  rfl

theorem loadEntry_mono (D : Doc) (hb : 0 < D.bufsiz) (n n' : Nat) (h : n ≤ n') (i p) :
    Le (loadEntry D false (getobj D false n) n i p {}).1 (loadEntry D false (getobj D false n') n' i p {}).1 := by
  have hI : ∀ f i s, s = ({} : Cache) → (getobj D false f i s).2 = {} := by
    rintro f i s rfl; exact uncached_state D hb f i
  have hg : ∀ i s t, s = {} → t = {} → Le (getobj D false n i s).1 (getobj D false n' i t).1 := by
    rintro i s t rfl rfl; exact lookup_mono D hb n n' h i
  obtain ⟨_ | strm, index, gen⟩ := p
  · exact loadOffset_le _ _ (· = {}) (· = {}) (hI n) (hI n') hg D hb n n' h index gen i {} {} rfl rfl
  · dsimp only [loadEntry]
    rw [loadObjstm_eq, loadObjstm_eq]
    have h1 := loadTag_inv _ (· = {}) (hI n) n strm {} rfl
    have h2 := loadTag_inv _ (· = {}) (hI n') n' strm {} rfl
    have h3 := loadTag_le _ _ (· = {}) (· = {}) (hI n) (hI n') hg n n' h strm {} {} rfl rfl
    generalize loadTag _ n _ _ = r at *
    generalize loadTag _ n' _ _ = r' at *
    obtain ⟨x, s1⟩ := r
    obtain ⟨y, t1⟩ := r'
    dsimp only at h1 h2 h3
    subst h1 h2
    rcases h3 with h3 | h3
    · subst h3; exact Or.inl rfl
    · subst h3
      rcases x with e | ⟨o, tag⟩ <;> exact Or.inr rfl

theorem readsAt_of (D : Doc) (hb : 0 < D.bufsiz) {n : Nat} {i p r} (h : (loadEntry D false (getobj D false n) n i p {}).1 = r)
    (hr : r ≠ .error .recursion) : D.ReadsAt i p r := by
  refine ⟨n, fun k hk => ?_⟩
  rcases loadEntry_mono D hb n k hk i p with h1 | h1
  · exact absurd (h.symm.trans h1) hr
  · rw [← h1]; exact h

/-- How the search over the sections `xs` ends. -/
def SearchEnd (D : Doc) (i : Int) (r : Except PyErr (Obj × Int)) (xs : List (Int → Except PyErr XPos)) : Prop :=
    ((∀ y ∈ xs, D.Skips i y) ∧ r = .error .pdfObjectNotFound) ∨
    ∃ newer x older, xs = newer ++ x :: older ∧ (∀ y ∈ newer, D.Skips i y) ∧
      ((∃ e, x i = .error e ∧ e ≠ .keyError ∧ r = .error e) ∨
       ∃ p, x i = .ok p ∧ ((∃ o, D.ReadsAt i p (.ok o) ∧ r = .ok (o, p.2.2)) ∨
         ∃ e, D.ReadsAt i p (.error e) ∧ e ≠ .psEOF ∧ e ≠ .pdfSyntaxError ∧ r = .error e))

theorem search_cases (D : Doc) (hb : 0 < D.bufsiz) (n : Nat) (i : Int) (xs r) (hr : r ≠ .error .recursion)
    (h : (searchXrefs D false (getobj D false n) n i xs {}).1 = r) : SearchEnd D i r xs := by
  induction xs with
  | nil => exact Or.inl ⟨by simp, h.symm⟩
  | cons x xs ih =>
    have next : D.Skips i x → (searchXrefs D false (getobj D false n) n i xs {}).1 = r → SearchEnd D i r (x :: xs) := fun hs hq => by
      rcases ih hq with ⟨h1, h2⟩ | ⟨newer, y, older, h1, h2, h3⟩
      · exact Or.inl ⟨by simpa using ⟨hs, h1⟩, h2⟩
      · exact Or.inr ⟨x :: newer, y, older, by rw [h1]; rfl, by simpa using ⟨hs, h2⟩, h3⟩
    rw [searchXrefs] at h
    rcases hx : x i with e | p
    · rw [hx] at h
      dsimp only at h
      by_cases he : e = .keyError
      · rw [if_pos he] at h
        exact next (Or.inl (by rw [hx, he])) h
      · rw [if_neg he] at h
        exact Or.inr ⟨[], x, xs, rfl, by simp, Or.inl ⟨e, hx, he, h.symm⟩⟩
    · rw [hx] at h
      dsimp only at h
      have hs := loadEntry_state D hb n i p
      rcases hl : loadEntry D false (getobj D false n) n i p {} with ⟨e | o, s1⟩
      · rw [hl] at h hs
        dsimp only at h hs
        by_cases he : e = .psEOF ∨ e = .pdfSyntaxError
        · rw [if_pos he, hs] at h
          have hne : (Except.error e : Except PyErr Obj) ≠ .error .recursion := by
            rcases he with rfl | rfl <;> simp
          exact next (Or.inr ⟨p, e, hx, readsAt_of D hb (by rw [hl]) hne, he⟩) h
        · rw [if_neg he] at h
          rw [not_or] at he
          refine Or.inr ⟨[], x, xs, rfl, by simp, Or.inr ⟨p, hx, Or.inr ⟨e, readsAt_of D hb (by rw [hl]) ?_, he.1, he.2, h.symm⟩⟩⟩
          rintro hc
          cases hc
          exact hr h.symm
      · rw [hl] at h
        exact Or.inr ⟨[], x, xs, rfl, by simp, Or.inr ⟨p, hx, Or.inl ⟨o, readsAt_of D hb (by rw [hl]) (by simp), h.symm⟩⟩⟩

/-- C26. Whatever `getobj` returns is what the newest section says that has the object and where it can be read. -/
theorem found_object (D : Doc) (hb : 0 < D.bufsiz) {s : Cache} (hs : Reach D s) (i : Int) (o : Obj) (g : Int)
    (h : D.Yields true s i (.ok (o, g))) : ∃ newer x older p, D.xrefs = newer ++ x :: older ∧ (∀ y ∈ newer, D.Skips i y) ∧
      x i = .ok p ∧ D.ReadsAt i p (.ok o) ∧ g = p.2.2 := by
  rw [cache_transparency D hb hs] at h
  obtain ⟨hr, n, hn⟩ := h
  cases n with
  | zero => cases hn
  | succ n =>
    rw [getobj_succ] at hn
    have h0 : dictGet ({} : Cache).objs i = none := rfl
    rw [h0] at hn
    split at hn
    · cases hn
    · split at hn
      · cases hn
      · dsimp only at hn
        have hq : (searchXrefs D false (getobj D false n) n i D.xrefs {}).1 = .ok (o, g) := by
          generalize searchXrefs _ _ _ _ _ _ _ = q at *
          obtain ⟨e | r, s1⟩ := q <;> exact hn
        rcases search_cases D hb n i D.xrefs _ hr hq with ⟨_, h2⟩ | ⟨newer, x, older, h1, h2, ⟨e, _, _, h3⟩ | ⟨p, h3, ⟨o', h4, h5⟩ | ⟨e, _, _, _, h5⟩⟩⟩
        · cases h2
        · cases h3
        · cases h5; exact ⟨newer, x, older, p, h1, h2, h3, h4, rfl⟩
        · cases h5

/-- C26. An object is reported missing only if every section is passed over - or if the object is in an object stream that is
missing itself (or `get_pos` says so): then older sections are not asked, see `missing_stream_hides_older`. -/
theorem missing_only_partial (D : Doc) (hb : 0 < D.bufsiz) {s : Cache} (hs : Reach D s) (i : Int)
    (h : D.Yields true s i (.error .pdfObjectNotFound)) : (∀ y ∈ D.xrefs, D.Skips i y) ∨
      ∃ newer x older, D.xrefs = newer ++ x :: older ∧ (∀ y ∈ newer, D.Skips i y) ∧
        (x i = .error .pdfObjectNotFound ∨ ∃ p, x i = .ok p ∧ D.ReadsAt i p (.error .pdfObjectNotFound)) := by
  rw [cache_transparency D hb hs] at h
  obtain ⟨hr, n, hn⟩ := h
  cases n with
  | zero => cases hn
  | succ n =>
    rw [getobj_succ] at hn
    have h0 : dictGet ({} : Cache).objs i = none := rfl
    rw [h0] at hn
    split at hn
    · cases hn
    · split at hn
      · cases hn
      · dsimp only at hn
        have hq : (searchXrefs D false (getobj D false n) n i D.xrefs {}).1 = .error .pdfObjectNotFound := by
          generalize searchXrefs _ _ _ _ _ _ _ = q at *
          obtain ⟨e | r, s1⟩ := q <;> exact hn
        rcases search_cases D hb n i D.xrefs _ hr hq with ⟨h1, _⟩ | ⟨newer, x, older, h1, h2, ⟨e, h4, _, h3⟩ | ⟨p, h3, ⟨o', h4, h5⟩ | ⟨e, h4, _, _, h5⟩⟩⟩
        · exact Or.inl h1
        · cases h3; exact Or.inr ⟨newer, x, older, h1, h2, Or.inl h4⟩
        · cases h5
        · cases h5; exact Or.inr ⟨newer, x, older, h1, h2, Or.inr ⟨p, h3, h4⟩⟩

/-! ### Direct objects in the file -/

variable {σ : Type}

/-- An object that is not a stream: `i g obj`, the object, `endobj`, in any spelling. -/
theorem plain_object (env : Env σ) (b : Nat) (hb : 0 < b) (data : Bytes) (pos : Nat) (i g : Int) (pre rest : Bytes)
    (pts : List (Nat × Tok)) (ts : List Tok) (o : Obj) (fuel : Nat) (s : σ) (hdata : data.drop pos = pre ++ rest) (ht : Text pos pts pre rest)
    (hp : pts.map Prod.snd = [.int i, .int g, .kw kwObj] ++ ts ++ [.kw kwEndobj]) (hw : Writes fileDialect ts o)
    (hfuel : ts.length + 2 ≤ fuel) : getobjParse env b fuel data pos i s = (.ok o, s) := by
  rw [getobjParse_eq hb, hdata, run_text ht]
  rw [List.append_assoc] at hp
  obtain ⟨pts1, pts2, rfl, hp1, hp2⟩ := map_snd_append hp
  obtain ⟨p1, r1, rfl, hr1⟩ := map_snd_cons hp1
  obtain ⟨p2, r2, rfl, hr2⟩ := map_snd_cons hr1
  obtain ⟨p3, r, rfl, hr⟩ := map_snd_cons hr2
  have : r = [] := by simpa using hr
  subst this
  simp only [Stream.pre, List.cons_append, List.nil_append, parseA]
  have hnum : (Tok.int i).isNum i = true := by simp [Tok.isNum]
  simp only [fixA, hnum, if_true, finishA, not_true, ne_eq, if_false]
  obtain ⟨pts3, pts4, rfl, hp3, hp4⟩ := map_snd_append hp2
  obtain ⟨q4, r4, rfl, hr4⟩ := map_snd_cons hp4
  have : r4 = [] := by simpa using hr4
  subst this
  obtain ⟨q, hq⟩ := pushes speaks_file hw {} pts3 (Or.inr fun _ => rfl) hp3
  have hl2 : pts3.length = ts.length := by rw [← hp3]; simp
  have hns : .kw kwStream ∉ pts3.map Prod.snd := by rw [hp3]; exact writes_no_stream hw
  obtain ⟨f, rfl⟩ : ∃ f, fuel = f + 1 + 1 + pts3.length := ⟨fuel - 2 - ts.length, by omega⟩
  generalize lexRun {} (pos + pre.length) rest = S
  rw [List.append_assoc, nextA_feedAll env data pts3 _ _ _ hq rfl hns s]
  rw [nextA.eq_def]
  dsimp only
  simp only [StackSt.push, List.nil_append, List.cons_append]
  rw [if_neg (by decide), feed_endobj _ q4 [(q, o)] (by simp) rfl]
  dsimp only
  rw [nextA.eq_def]
  rfl

/-- The resolution of references leaves direct objects alone. -/
theorem resolve1_direct (get : Get) (n : Nat) (fb : Bool) : Env.Direct (σ := Cache) ⟨fb, resolve1 get n⟩ := by
  intro o s h
  cases n <;> cases o <;> first | rfl | exact absurd rfl (h _ _)

/-- C26, end to end, without encryption: if the newest section that has object `i` gives the offset of `i g obj ... endobj`,
that object is returned, with the generation number of the section. -/
theorem newest_object (D : Doc) (hb : 0 < D.bufsiz) (hdec : D.decipher = none) {s : Cache} (hs : Reach D s) (i : Int) (hi : i ≠ 0)
    (newer older x) (hx : D.xrefs = newer ++ x :: older) (hskip : ∀ y ∈ newer, y i = .error .keyError)
    (pos : Nat) (gen g : Int) (hp : x i = .ok (none, pos, gen)) (pre rest : Bytes) (pts : List (Nat × Tok)) (ts : List Tok) (o : Obj)
    (hdata : D.data.drop pos = pre ++ rest) (ht : Text pos pts pre rest)
    (hpts : pts.map Prod.snd = [.int i, .int g, .kw kwObj] ++ ts ++ [.kw kwEndobj]) (hw : Writes fileDialect ts o) :
    D.Yields true s i (.ok (o, gen)) := by
  refine newest_wins D hb hs i hi newer older x (none, pos, gen) o hx (fun y hy => Or.inl (hskip y hy)) hp ?_
  refine ⟨ts.length + 2, fun n hn => ?_⟩
  dsimp only [loadEntry, loadOffset]
  rw [if_neg (by omega), Int.toNat_natCast, plain_object (σ := Cache) ⟨D.fallback, resolve1 (getobj D false n) n⟩ D.bufsiz hb D.data pos i g pre rest pts ts o n {} hdata ht hpts hw hn, hdec]

/-- C26. Writing an object anywhere in a file and looking it up: printed objects come back. -/
theorem newest_object_printed (D : Doc) (hb : 0 < D.bufsiz) (hdec : D.decipher = none) {s : Cache} (hs : Reach D s) (i : Int) (hi : i ≠ 0)
    (newer older x) (hx : D.xrefs = newer ++ x :: older) (hskip : ∀ y ∈ newer, y i = .error .keyError)
    (before after : Bytes) (gen g : Int) (o : Obj) (hw : WF o)
    (hdata : D.data = before ++ (printToks ([.int i, .int g, .kw kwObj] ++ objToks o ++ [.kw kwEndobj]) ++ after))
    (hp : x i = .ok (none, before.length, gen)) : D.Yields true s i (.ok (o, gen)) := by
  obtain ⟨pts, h1, h2⟩ := text_print ([.int i, .int g, .kw kwObj] ++ objToks o ++ [.kw kwEndobj]) (by
    intro t ht
    simp only [List.mem_append, List.mem_cons, List.not_mem_nil, or_false] at ht
    rcases ht with ((rfl | rfl | rfl) | ht) | rfl
    · trivial
    · trivial
    · exact Or.inr ⟨111, [98, 106], rfl, by decide, by decide, by decide, by decide⟩
    · exact printable_obj _ hw t ht
    · exact Or.inr ⟨101, [110, 100, 111, 98, 106], rfl, by decide, by decide, by decide, by decide⟩) before.length after
  exact newest_object D hb hdec hs i hi newer older x hx hskip before.length gen g hp _ after pts _ o (by rw [hdata]; simp) h2 h1
    (writes_obj rfl _ hw)

/-! ### References -/

/-- `Refers D o o'`: following references from `o` ends at `o'`. -/
inductive Refers (D : Doc) : Obj → Obj → Prop
  | direct {o} : (∀ i g, o ≠ .ref i g) → Refers D o o
  | ref {i g o g' o'} : D.Yields false {} i (.ok (o, g')) → Refers D o o' → Refers D (.ref i g) o'
  | missing {i g} : D.Yields false {} i (.error .pdfObjectNotFound) → Refers D (.ref i g) .null

theorem refers_evt (D : Doc) (hb : 0 < D.bufsiz) {o o'} (h : Refers D o o') (tag) :
    Evt fun m => Evt fun n => ∃ t, resolveTag (getobj D false n) m o tag {} = (.ok (o', t), {}) := by
  induction h generalizing tag with
  | @direct o ho =>
    refine .all fun m => .all fun n => ⟨tag, ?_⟩
    cases m <;> cases o <;> first | rfl | exact absurd rfl (ho _ _)
  | @ref i g o g' o' hy _ ih =>
    obtain ⟨_, he⟩ := (yields_evt D hb).1 hy
    refine Evt.succ ((ih (some (i, g'))).mono fun m hm => ?_)
    refine (he.and hm).mono fun n hn => ?_
    obtain ⟨h1, t, h2⟩ := hn
    refine ⟨t, ?_⟩
    rw [resolveTag]
    rw [uncached_eq D hb, h1]
    exact h2
  | @missing i g hy =>
    obtain ⟨_, he⟩ := (yields_evt D hb).1 hy
    refine Evt.succ (.all fun m => ?_)
    refine he.mono fun n hn => ⟨none, ?_⟩
    rw [resolveTag]
    rw [uncached_eq D hb, hn]
    rfl

/-- What `resolve1(o)` on a document with caches `s` returns or raises, if it ends. -/
def Doc.Resolves (D : Doc) (caching : Bool) (s : Cache) (o : Obj) (r : Except PyErr Obj) : Prop :=
  r ≠ .error .recursion ∧ ∃ fuel, (resolve1 (getobj D caching fuel) fuel o s).1 = r

theorem getobj_mono (D : Doc) (hb : 0 < D.bufsiz) (n n' : Nat) (h : n ≤ n') (i) :
    ∀ s t, s = {} → t = {} → Le (getobj D false n i s).1 (getobj D false n' i t).1 := by
  rintro s t rfl rfl; exact lookup_mono D hb n n' h i

theorem uncached_inv (D : Doc) (hb : 0 < D.bufsiz) (n) : ∀ i s, s = ({} : Cache) → (getobj D false n i s).2 = {} := by
  rintro i s rfl; exact uncached_state D hb n i

theorem resolve1_mono (D : Doc) (hb : 0 < D.bufsiz) (n n' : Nat) (h : n ≤ n') (o) :
    Le (resolve1 (getobj D false n) n o {}).1 (resolve1 (getobj D false n') n' o {}).1 :=
  resolve1_le _ _ (· = {}) (· = {}) (uncached_inv D hb n) (uncached_inv D hb n') (getobj_mono D hb n n' h) n n' h o {} {} rfl rfl

/-- C28 with and without caches. -/
theorem resolves_transparent (D : Doc) (hb : 0 < D.bufsiz) {s : Cache} (hs : Reach D s) (o r) :
    D.Resolves true s o r ↔ D.Resolves false {} o r := by
  have hS := hs.sound hb
  constructor
  · rintro ⟨hr, n, hn⟩
    refine ⟨hr, ?_⟩
    have := resolve1_ev (getobj D true n) (fun m => getobj D false m) (Sound D) (fun i s h => (cached_ev D hb n i s h).1)
      (fun i s h => (cached_ev D hb n i s h).2) n o s hS (by rw [hn]; exact hr)
    obtain ⟨m, h1, h2⟩ := (this.and (Evt.ge n)).exists
    exact ⟨m, by rw [h1 m h2, hn]⟩
  · rintro ⟨hr, n, hn⟩
    refine ⟨hr, n, ?_⟩
    have := resolve1_le (getobj D false n) (getobj D true n) (· = {}) (Sound D) (uncached_inv D hb n) (fun i s h => (cached_ev D hb n i s h).1)
      (by rintro i s t rfl ht; exact cached_le D hb n i t ht) n n (Nat.le_refl _) o {} s rfl hS
    rcases this with h | h
    · exact absurd (hn.symm.trans h) hr
    · rw [← h]; exact hn

/-- C28. `resolve1` returns the object at the end of the chain of references, however long the chain: `null` if the last
reference is to a missing object, never a reference; and it returns nothing else. -/
theorem resolve_chain (D : Doc) (hb : 0 < D.bufsiz) {s : Cache} (hs : Reach D s) (o o' : Obj) :
    D.Resolves true s o (.ok o') ↔ Refers D o o' := by
  rw [resolves_transparent D hb hs]
  constructor
  · rintro ⟨_, n, hn⟩
    unfold resolve1 at hn
    have main : ∀ m o tag o' t, (resolveTag (getobj D false n) m o tag {}).1 = .ok (o', t) → Refers D o o' := by
      intro m
      induction m with
      | zero =>
        intro o tag o' t h
        cases o <;> first | (cases h; exact .direct (by simp)) | cases h
      | succ m ih =>
        intro o tag o' t h
        cases o with
        | ref i g =>
          rw [resolveTag] at h
          rw [uncached_eq D hb] at h
          rcases hl : lookup D n i with e | ⟨o1, g1⟩
          · rw [hl] at h
            dsimp only at h
            split at h
            · rename_i he
              cases h
              exact .missing ⟨by simp, n, by rw [uncached_eq D hb, hl, he]⟩
            · cases h
          · rw [hl] at h
            exact .ref ⟨by simp, n, by rw [uncached_eq D hb, hl]⟩ (ih _ _ _ _ h)
        | _ => cases h; exact .direct (by simp)
    rcases hq : resolveTag (getobj D false n) n o none {} with ⟨e | ⟨o1, t⟩, s1⟩
    · rw [hq] at hn; cases hn
    · rw [hq] at hn; cases hn
      exact main n o none o' t (by rw [hq])
  · intro h
    refine ⟨by simp, ?_⟩
    obtain ⟨m, hm⟩ := (refers_evt D hb h none).exists
    obtain ⟨n, hn⟩ := (hm.and (Evt.ge m)).exists
    refine ⟨n, ?_⟩
    obtain ⟨⟨t, h1⟩, h2⟩ := hn
    have := resolveTag_le (getobj D false n) (getobj D false n) (· = {}) (· = {}) (uncached_inv D hb n) (uncached_inv D hb n)
      (getobj_mono D hb n n (Nat.le_refl _)) m n h2 o none {} {} rfl rfl
    rw [h1] at this
    rcases this with h | h
    · cases h
    · dsimp only at h
      unfold resolve1
      generalize resolveTag _ n o none {} = q at *
      obtain ⟨y, s1⟩ := q
      dsimp only at h
      subst h
      rfl

theorem refers_not_ref {D : Doc} {o o'} (h : Refers D o o') : ∀ i g, o' ≠ .ref i g := by
  induction h with
  | direct h => exact h
  | ref _ _ ih => exact ih
  | missing _ => simp

theorem refers_unique (D : Doc) (hb : 0 < D.bufsiz) {o o1 o2} (h1 : Refers D o o1) (h2 : Refers D o o2) : o1 = o2 := by
  have uq : ∀ i r r', D.Yields false {} i r → D.Yields false {} i r' → r = r' := fun i r r' h h' =>
    lookup_unique D hb h.2.choose_spec h.1 h'.2.choose_spec h'.1
  induction h1 with
  | direct h =>
    cases h2 with
    | direct _ => rfl
    | ref _ _ => exact absurd rfl (h _ _)
    | missing _ => exact absurd rfl (h _ _)
  | @ref i g o g' o' hy _ ih =>
    cases h2 with
    | direct h => exact absurd rfl (h _ _)
    | ref hy2 hr => cases uq i _ _ hy hy2; exact ih hr
    | missing hy2 => cases uq i _ _ hy hy2
  | @missing i g hy =>
    cases h2 with
    | direct h => exact absurd rfl (h _ _)
    | ref hy2 hr => cases uq i _ _ hy hy2
    | missing _ => rfl

/-- C28. A chain of references that never ends makes `resolve1` run forever. -/
theorem cycle_diverges (D : Doc) (hb : 0 < D.bufsiz) {s : Cache} (hs : Reach D s) (id : Nat → Int)
    (hc : ∀ k, ∃ g g', D.Yields false {} (id k) (.ok (.ref (id (k + 1)) g, g'))) (g : Int) (r) :
    ¬ D.Resolves true s (.ref (id 0) g) r := by
  rw [resolves_transparent D hb hs]
  rintro ⟨hr, n, hn⟩
  have main : ∀ m k g tag, (resolveTag (getobj D false n) m (.ref (id k) g) tag {}).1 = .error .recursion := by
    intro m
    induction m with
    | zero => intro k g tag; rfl
    | succ m ih =>
      intro k g tag
      obtain ⟨g1, g2, hy⟩ := hc k
      rw [resolveTag]
      rw [uncached_eq D hb]
      obtain ⟨_, q, hq⟩ := (yields_evt D hb).1 hy
      have hm := lookup_mono D hb n (max n q) (by omega) (id k)
      rw [hq (max n q) (by omega)] at hm
      rcases hm with h | h
      · rw [h]; rfl
      · rw [h]; exact ih _ _ _
  unfold resolve1 at hn
  have := main n 0 g none
  generalize resolveTag _ _ _ _ _ = q at *
  obtain ⟨y, s1⟩ := q
  dsimp only at this
  subst this
  exact hr hn.symm

end Pdf
