import Verif.Spec.Pipeline
import Verif.Props.WellFormed
/-! C90: from the bytes of a file to its text. -/

namespace Pdf
open Spec

/-! ### The objects of the file -/

theorem located_yields {S : Setup} (hb : 0 < S.bufsiz) {data : Bytes} {secs : List Sec} {i : Int} {o : Obj} (h : Located S.fileDecode data secs i o) :
    i ≠ 0 ∧ ∃ g, (S.doc data true (secs.map Sec.pos)).Yields true {} i (.ok (o, g)) := by
  induction h with
  | @offset i newer sec older gen o pos hi hs hn hp ho =>
    refine ⟨hi, gen, ?_⟩
    refine newest_wins _ hb .start i hi (newer.map Sec.pos) (older.map Sec.pos) sec.pos (none, pos, gen) o (by simp [Setup.doc, hs]) ?_ hp ?_
    · intro y hy
      obtain ⟨z, hz, rfl⟩ := List.mem_map.1 hy
      exact .inl (hn z hz)
    · cases ho with
      | @plain g pre rest pts ts o h1 h2 h3 h4 =>
        refine ⟨ts.length + 2, fun n hn => ?_⟩
        dsimp only [loadEntry, loadOffset]
        rw [if_neg (by omega), Int.toNat_natCast]
        rw [plain_object (σ := Cache) _ (S.doc data true (secs.map Sec.pos)).bufsiz hb (S.doc data true (secs.map Sec.pos)).data pos i g pre rest pts ts o n {} h1 h2 h3 h4 hn]
        rfl
      | @stream g pre eol body rest mid tail pts ets ts d h1 h2 h3 h4 h5 h6 h7 h8 h9 h10 =>
        refine ⟨ts.length + 4, fun n hn => ?_⟩
        dsimp only [loadEntry, loadOffset]
        rw [if_neg (by omega), Int.toNat_natCast]
        rw [stream_fallback (σ := Cache) _ (resolve1_direct _ _ (S.doc data true (secs.map Sec.pos)).fallback) rfl (S.doc data true (secs.map Sec.pos)).bufsiz hb (S.doc data true (secs.map Sec.pos)).data pos i g pre eol body rest mid tail pts ets ts d n {} h1 h2 h3 h4 h5 h6 h7 h8 h9 h10 hn]
        rfl
  | @packed i newer sec older gen strm d raw text pts header os o k n hi hs hn hp hl hd ht hw hr hN hh ho ih =>
    obtain ⟨_, g, ih⟩ := ih
    refine ⟨hi, gen, ?_⟩
    refine objstm_object _ hb .start i hi (newer.map Sec.pos) (older.map Sec.pos) sec.pos (by simp [Setup.doc, hs]) ?_ strm k gen g hp d raw text ih hd pts header os ht hw hr n hN hh o ho
    intro y hy
    obtain ⟨z, hz, rfl⟩ := List.mem_map.1 hy
    exact hn z hz

theorem yields_both (D : Doc) (hb : 0 < D.bufsiz) {i r} (h : D.Yields true {} i r) (c : Bool) : Evt fun n => (getobj D c n i {}).1 = r := by
  rw [cache_transparency D hb .start, yields_evt D hb] at h
  obtain ⟨hr, h⟩ := h
  refine h.mono fun n hn => ?_
  cases c with
  | false => exact hn
  | true =>
    rcases cached_le D hb n i {} (sound_empty D) with h | h
    · exact absurd (hn.symm.trans h) hr
    · rw [← h]; exact hn

theorem missing_evt (D : Doc) (hx : D.xrefs ≠ []) (i : Int) (hi : i ≠ 0) (h : ∀ x ∈ D.xrefs, x i = .error .keyError) (c : Bool) (n : Nat) :
    getobj D c (n + 1) i {} = (.error .pdfObjectNotFound, {}) := by
  have hs : ∀ (l : List (Int → Except PyErr XPos)) (s : Cache), (∀ x ∈ l, x i = .error .keyError) →
      searchXrefs D c (getobj D c n) n i l s = (.error .pdfObjectNotFound, s) := by
    intro l
    induction l with
    | nil => intro s _; rfl
    | cons x l ih =>
      intro s hl
      rw [searchXrefs, hl x (by simp)]
      dsimp only
      rw [if_pos rfl]
      exact ih s fun y hy => hl y (by simp [hy])
  rw [getobj_succ, if_neg hi, if_neg (by simpa using hx)]
  have h0 : dictGet ({} : Cache).objs i = none := rfl
  rw [h0]
  dsimp only
  rw [hs _ _ h]

theorem evt_all {α : Type} (l : List α) (p : α → Nat → Prop) (h : ∀ x ∈ l, Evt (p x)) : Evt fun n => ∀ x ∈ l, p x n := by
  induction l with
  | nil => exact .all fun _ x hx => by cases hx
  | cons x l ih =>
    refine ((h x (by simp)).and (ih fun y hy => h y (by simp [hy]))).mono fun n hn y hy => ?_
    rcases List.mem_cons.1 hy with rfl | hy
    · exact hn.1
    · exact hn.2 y hy

theorem reveal_none (tag : Option (Int × Int)) (o : Obj) : reveal none tag o = .ok o := by cases o <;> rfl

/-- With enough fuel, following references in a document is looking them up in the table of its objects. -/
theorem resolver_generic (D : Doc) (hb : 0 < D.bufsiz) (hne : D.xrefs ≠ []) (cipher : Option Cipher) {objs : List (Int × Obj)}
    (hy : ∀ i o, dictGet objs i = some o → i ≠ 0 ∧ (∀ j g, o ≠ .ref j g) ∧ ∃ o0 g, D.Yields true {} i (.ok (o0, g)) ∧ reveal cipher (some (i, g)) o0 = .ok o)
    (hm : ∀ i, dictGet objs i = none → ∀ x ∈ D.xrefs, x i = .error .keyError) (c : Bool) :
    Evt fun n => docResolver D cipher c n {} = fileResolver objs := by
  have h1 : Evt fun n => ∀ x ∈ objs, ∀ o, dictGet objs x.1 = some o → ∃ o0 g, (getobj D c n x.1 {}).1 = .ok (o0, g) ∧ reveal cipher (some (x.1, g)) o0 = .ok o := by
    refine evt_all objs (fun x n => ∀ o, dictGet objs x.1 = some o → ∃ o0 g, (getobj D c n x.1 {}).1 = .ok (o0, g) ∧ reveal cipher (some (x.1, g)) o0 = .ok o) fun x hx => ?_
    cases ho : dictGet objs x.1 with
    | none => exact .all fun _ _ h => by cases h
    | some o =>
      obtain ⟨_, _, o0, g, hy, hr⟩ := hy _ _ ho
      exact (yields_both _ hb hy c).mono fun n hn o' h' => by cases h'; exact ⟨o0, g, hn, hr⟩
  obtain ⟨N, hN⟩ := h1
  refine ⟨N + 2, fun n hn => ?_⟩
  obtain ⟨m, rfl⟩ : ∃ m, n = m + 1 := ⟨n - 1, by omega⟩
  have hget : ∀ i, (∃ o o0 g s, i ≠ 0 ∧ dictGet objs i = some o ∧ getobj D c (m + 1) i {} = (.ok (o0, g), s) ∧ reveal cipher (some (i, g)) o0 = .ok o) ∨
      (i ≠ 0 ∧ dictGet objs i = none ∧ getobj D c (m + 1) i {} = (.error .pdfObjectNotFound, {})) ∨
      (i = 0 ∧ getobj D c (m + 1) i {} = (.error .assertion, {})) := by
    intro i
    by_cases hi : i = 0
    · subst hi
      exact .inr (.inr ⟨rfl, by rw [getobj_succ, if_pos rfl]⟩)
    · cases ho : dictGet objs i with
      | none => exact .inr (.inl ⟨hi, rfl, missing_evt _ hne i hi (hm i ho) c m⟩)
      | some o =>
        obtain ⟨o0, g, hg, hr⟩ := hN (m + 1) (by omega) (i, o) (dictGet_mem_list ho) o ho
        refine .inl ⟨o, o0, g, _, hi, rfl, Prod.ext hg rfl, hr⟩
  have hr : ∀ o, (docResolver D cipher c (m + 1) {}).resolve1 o = (fileResolver objs).resolve1 o := by
    intro o
    by_cases hd : ∃ i g, o = .ref i g
    · obtain ⟨i, g, rfl⟩ := hd
      simp only [docResolver, resolveTag, fileResolver]
      rcases hget i with ⟨o, o0, g', s, hi, ho, hg, hr⟩ | ⟨hi, ho, hg⟩ | ⟨hi, hg⟩
      · rw [hg, ho, if_neg hi]
        dsimp only
        have hd := (hy i o ho).2.1
        have hd0 : ∀ j g, o0 ≠ .ref j g := by
          rintro j g rfl
          simp only [reveal, Except.ok.injEq] at hr
          exact hd j g hr.symm
        have : resolveTag (getobj D c (m + 1)) m o0 (some (i, g')) s = (.ok (o0, some (i, g')), s) := by
          cases m <;> cases o0 <;> first | rfl | exact absurd rfl (hd0 _ _)
        rw [this]
        exact hr
      · rw [hg, ho, if_neg hi]; rfl
      · rw [hg, if_pos hi]; rfl
    · have : ∀ i g, o ≠ .ref i g := fun i g e => hd ⟨i, g, e⟩
      simp only [docResolver]
      have h1 : resolveTag (getobj D c (m + 1)) (m + 1) o none {} = (.ok (o, none), {}) := by
        cases o <;> first | rfl | exact absurd rfl (this _ _)
      rw [h1]
      cases o <;> first | exact absurd rfl (this _ _) | (cases cipher <;> rfl)
  have hg : ∀ i, (docResolver D cipher c (m + 1) {}).getobj i = (fileResolver objs).getobj i := by
    intro i
    simp only [docResolver, fileResolver]
    rcases hget i with ⟨o, o0, g', s, hi, ho, hg, hr⟩ | ⟨hi, ho, hg⟩ | ⟨hi, hg⟩
    · rw [hg, ho, if_neg hi]; exact hr
    · rw [hg, ho, if_neg hi]
    · rw [hg, if_pos hi]
  exact congr (congrArg Resolver.mk (funext hr)) (funext hg)

/-- With enough fuel, following references in the document is looking them up in the table of its objects. -/
theorem resolver_limit {S : Setup} (hb : 0 < S.bufsiz) {data : Bytes} {secs : List Sec} (hne : secs ≠ []) {objs : List (Int × Obj)}
    (h : FileObjects S.fileDecode data secs objs) (c : Bool) :
    Evt fun n => docResolver (S.doc data true (secs.map Sec.pos)) none c n {} = fileResolver objs := by
  refine resolver_generic (S.doc data true (secs.map Sec.pos)) hb (by simpa [Setup.doc] using hne) none (fun i o ho => ?_) (fun i ho x hx => ?_) c
  · obtain ⟨h0, g, hy⟩ := located_yields hb (h.located i o ho)
    exact ⟨h0, h.direct i o ho, o, g, hy, reveal_none _ _⟩
  · obtain ⟨z, hz, rfl⟩ := List.mem_map.1 hx
    exact h.complete i ho z hz

/-! ### Opening the document -/

theorem find_none (b : Nat) (hb : 0 < b) (data : Bytes) (h : ∀ f ∈ (eolFields data).tail, ¬ Trims f startxrefWord) : findXref b data = .error .pdfNoValidXRef := by
  unfold findXref
  rw [findXref_fields b hb]
  obtain ⟨p, hp⟩ := findS_skip ((eolFields data).tail.reverse.map strip) [] (by
    intro hm
    obtain ⟨f, hf, he⟩ := List.mem_map.1 hm
    exact h f (by simpa using hf) (show Trims f kwStartxref from he ▸ trims_strip f)) none
  rw [List.append_nil] at hp
  rw [hp]
  rfl

/-- The sections of the document are those of the file. -/
theorem sections_open {S : Setup} (hb : 0 < S.bufsiz) {data : Bytes} {secs : List Sec} (h : Sections S.fileDecode data secs) (pw : Option PyStr) (c : Bool) :
    Evt fun n => ∃ xs, List.Forall₂ Xref.Is xs secs ∧ openDocument S pw c n data = openRoot S pw c n data xs {} := by
  have key : ∀ {sc es q d}, (Evt fun n => ∃ xs, openXrefs (fun l => S.env c n data false (l.map Xref.getPos)) S.fileDecode S.bufsiz n data {} = (.ok xs, {}) ∧
      List.Forall₂ Xref.Is xs sc) → Region S.fileDecode data 0 es q → ScanEnd data q d →
      Evt fun n => ∃ xs, List.Forall₂ Xref.Is xs (sc ++ [⟨scanned es, d⟩]) ∧ openDocument S pw c n data = openRoot S pw c n data xs {} := by
    intro sc es q d h1 h2 h3
    obtain ⟨N, t, h4, h5, h6⟩ := recover Cache S.fileDecode S.bufsiz hb data es q d h2 h3
    refine (h1.and (Evt.ge N)).mono fun n hn => ?_
    obtain ⟨⟨xs, g1, g2⟩, hN⟩ := hn
    refine ⟨xs ++ [.table t], List.rel_append g2 (.cons (show Xref.Is (.table t) ⟨scanned es, d⟩ from ⟨h5, h6⟩) .nil), ?_⟩
    unfold openDocument
    rw [g1]
    dsimp only
    rw [h4 (S.env c n data true (xs.map Xref.getPos)) (resolve1_direct _ _ _) rfl n hN]
  cases h with
  | intact h1 h2 h3 h4 h5 h6 h7 h8 h9 =>
    obtain ⟨N, hN⟩ := open_sections (σ := Cache) S.fileDecode hb data _ _ _ _ _ _ _ _ h1 h2 h3 h4 h5 h6 h7 {}
    exact key ⟨N, fun n hn => hN _ (fun _ => resolve1_direct _ _ _) (fun _ => rfl) n hn⟩ h8 h9
  | broken h1 h2 h3 h4 h5 h6 h7 h8 h9 =>
    obtain ⟨N, hN⟩ := open_broken (σ := Cache) S.fileDecode hb data _ (find_last_startxref S.bufsiz hb data _ _ _ _ _ _ _ h1 h2 h3 h4 h5 h6) _ h7 {}
    exact key ⟨N, fun n hn => hN _ (fun _ => resolve1_direct _ _ _) (fun _ => rfl) n hn⟩ h8 h9
  | @lost es q d h1 h8 h9 =>
    refine key (sc := []) (.all fun n => ⟨[], ?_, .nil⟩) h8 h9
    unfold openXrefs
    rw [find_none S.bufsiz hb data h1]
    rfl

theorem is_trailers {xs : List Xref} {secs : List Sec} (h : List.Forall₂ Xref.Is xs secs) :
    xs.map Xref.trailer = secs.map Sec.trailer ∧ xs.map Xref.getPos = secs.map Sec.pos := by
  induction h with
  | nil => exact ⟨rfl, rfl⟩
  | cons h _ ih => exact ⟨by simp [h.1, ih.1], by simp [funext h.2, ih.2]⟩

theorem rootLoop_cons (dictv) (x : List (Key × Obj)) (rest) (info) : rootLoop dictv (x :: rest) info = match addInfo dictv x info with
    | .error e => .error e
    | .ok info =>
      match dictGet x nameRoot with
      | some o => match dictv o with
        | .ok d => .ok (info, d)
        | .error e => .error e
      | none => rootLoop dictv rest info := by
  rw [rootLoop, addInfo]
  cases dictGet x nameInfo with
  | none => rfl
  | some o => dsimp only; cases dictv o <;> rfl

theorem trailers_plain (C : Crypto) (pw : Option PyStr) (res : Option Cipher → Resolver) {before after : List (List (Key × Obj))} {t : List (Key × Obj)}
    (h : ∀ x ∈ before ++ [t], dictGet x (nm "Encrypt") = none) {root} (ht : dictGet t (nm "Root") = some root) :
    ∀ info infos catalog, rootLoop (res none).dictValue (before ++ t :: after) info = .ok (infos, catalog) →
      trailerLoop C pw res (before ++ t :: after) none info = .ok (none, infos, catalog) := by
  have step : ∀ (x : List (Key × Obj)) rest info infos catalog, dictGet x (nm "Encrypt") = none → rootLoop (res none).dictValue (x :: rest) info = .ok (infos, catalog) →
      (∀ info, dictGet x nameRoot = none → rootLoop (res none).dictValue rest info = .ok (infos, catalog) → trailerLoop C pw res rest none info = .ok (none, infos, catalog)) →
      trailerLoop C pw res (x :: rest) none info = .ok (none, infos, catalog) := by
    intro x rest info infos catalog hx hl hrest
    rw [rootLoop_cons] at hl
    rw [trailerLoop, initCipher, hx]
    dsimp only at hl ⊢
    cases hi : addInfo (res none).dictValue x info with
    | error e => rw [hi] at hl; cases hl
    | ok info' =>
      rw [hi] at hl
      dsimp only at hl ⊢
      cases hr : dictGet x nameRoot with
      | none => rw [hr] at hl; exact hrest info' hr hl
      | some o =>
        rw [hr] at hl
        dsimp only at hl ⊢
        cases hv : (res none).dictValue o with
        | error e => rw [hv] at hl; cases hl
        | ok d =>
          rw [hv] at hl
          simp only [Except.ok.injEq, Prod.mk.injEq] at hl ⊢
          exact ⟨trivial, hl.1, hl.2⟩
  induction before with
  | nil =>
    intro info infos catalog hl
    exact step t after info infos catalog (h t (by simp)) hl fun info hn => by rw [show nameRoot = nm "Root" from rfl, ht] at hn; cases hn
  | cons x before ih =>
    intro info infos catalog hl
    exact step x _ info infos catalog (h x (by simp)) hl fun info _ hr => ih (fun y hy => h y (by simp only [List.cons_append, List.mem_cons]; exact .inr hy)) _ _ _ hr

/-- The document is opened: its objects are those of the file, its catalog is the one of the newest trailer. -/
theorem document_open {S : Setup} (hb : 0 < S.bufsiz) {data : Bytes} {secs : List Sec} (h : Sections S.fileDecode data secs) {objs : List (Int × Obj)}
    (ho : FileObjects S.fileDecode data secs objs) {before after : List (List (Key × Obj))} {t : List (Key × Obj)} {root : Obj} {catalog : List (Key × Obj)}
    (ht : secs.map Sec.trailer = before ++ t :: after) (hbe : ∀ x ∈ before, dictGet x (nm "Root") = none) (hr : dictGet t (nm "Root") = some root)
    (hen : ∀ x ∈ before ++ [t], dictGet x (nm "Encrypt") = none)
    (hin : ∀ x ∈ before ++ [t], ∀ v, dictGet x (nm "Info") = some v → ∃ w, (fileResolver objs).resolve1 v = .ok w)
    (hc : (fileResolver objs).resolve1 root = .ok (.dict catalog)) (pw : Option PyStr) (c : Bool) :
    Evt fun n => ∃ O, openDocument S pw c n data = .ok O ∧ O.cipher = none ∧ O.catalog = catalog ∧ O.resolver c n = fileResolver objs := by
  have hne : secs ≠ [] := by rintro rfl; simp at ht
  refine ((sections_open hb h pw c).and (resolver_limit hb hne ho c)).mono fun n hn => ?_
  obtain ⟨⟨xs, h1, h2⟩, h3⟩ := hn
  obtain ⟨h4, h5⟩ := is_trailers h1
  have hd : ∀ o w, (fileResolver objs).resolve1 o = .ok w → ∃ d, (fileResolver objs).dictValue o = .ok d := by
    intro o w h
    unfold Resolver.dictValue
    rw [h]
    cases w <;> exact ⟨_, rfl⟩
  have hinfo : ∃ infos, List.Forall₂ (fun o d => (fileResolver objs).dictValue o = .ok d) ((before ++ [t]).filterMap fun x => dictGet x (nm "Info")) infos := by
    refine forall2_exists fun o ho => ?_
    obtain ⟨x, hx, hv⟩ := List.mem_filterMap.1 ho
    obtain ⟨w, hw⟩ := hin x hx o hv
    exact hd o w hw
  obtain ⟨infos, hinfo⟩ := hinfo
  have hroot : (fileResolver objs).dictValue root = .ok catalog := by unfold Resolver.dictValue; rw [hc]
  have := catalog_of_newest (fileResolver objs).dictValue before after t root catalog hbe hr hroot infos hinfo []
  rw [h2]
  unfold openRoot
  rw [h4, h5, ht, trailers_plain S.crypto pw _ hen hr [] infos catalog (by
    show rootLoop (docResolver (S.doc data true (secs.map Sec.pos)) none c n {}).dictValue _ _ = _
    rw [h3]; exact this)]
  exact ⟨_, rfl, rfl, rfl, h3⟩

/-! ### Fonts and contents -/

theorem buildFont_more (E : FontEnv) (k : Nat) : ∀ n ≥ k, ∀ spec f, buildFont E k spec = .ok f → buildFont E n spec = .ok f := by
  induction k with
  | zero => intro n _ spec f h; cases h
  | succ k ih =>
    intro n hn spec f h
    obtain ⟨m, rfl⟩ : ∃ m, n = m + 1 := ⟨n - 1, by omega⟩
    have ih := ih m (by omega)
    rw [buildFont] at h ⊢
    split at h
    · split at h
      · rename_i h1; rw [if_pos h1]; exact h
      · rename_i h1
        rw [if_neg h1]
        split at h
        · rename_i h2; rw [if_pos h2]; exact h
        · rename_i h2
          rw [if_neg h2]
          split at h
          · rename_i h3
            rw [if_pos h3]
            cases h4 : dictGet spec (nm "DescendantFonts") with
            | none => rw [h4] at h; exact h
            | some o =>
              rw [h4] at h
              dsimp only at h ⊢
              cases h5 : E.R.listValue o with
              | error e => rw [h5] at h; exact h
              | ok l =>
                rw [h5] at h
                cases l with
                | nil => exact h
                | cons x l =>
                  dsimp only at h ⊢
                  simp only [bind, Except.bind] at h ⊢
                  cases h6 : E.R.dictValue x with
                  | error e => rw [h6] at h; exact h
                  | ok sub =>
                    rw [h6] at h
                    dsimp only at h ⊢
                    cases h7 : composeSpec E.R spec sub with
                    | error e => rw [h7] at h; exact h
                    | ok sub' =>
                      rw [h7] at h
                      exact ih _ _ h
          · rename_i h3; rw [if_neg h3]; exact h
    · exact h

theorem streamsData_ok {R : Resolver} {getData} {streams : List Obj} {datas : List Bytes}
    (h : List.Forall₂ (fun o b => ∃ d raw, R.resolve1 o = .ok (.stream d raw) ∧ getData d raw = .ok b) streams datas) :
    streamsData R getData streams = (datas, none) := by
  induction h with
  | nil => rfl
  | @cons o _ _ _ h _ ih =>
    obtain ⟨d, raw, h1, h2⟩ := h
    have : R.streamValue o = .ok (d, raw) := by unfold Resolver.streamValue; rw [h1]
    simp only [streamsData, this, h2, ih]

theorem content_limit {R : Resolver} {getData} {b : Nat} (hb : 0 < b) {streams os : List Obj} (h : ContentOf R getData streams os) :
    Evt fun n => contentOf R getData b n streams = (os, none) := by
  obtain ⟨datas, h1, h2, h3, h4⟩ := h
  obtain ⟨N, hN⟩ := content_read b hb datas os h1 h3 h4
  refine ⟨max N (os.length + 1), fun n hn => ?_⟩
  unfold contentOf
  rw [streamsData_ok h2]
  cases datas with
  | nil => exact absurd rfl h1
  | cons d ds =>
    dsimp only
    rw [hN n (by omega), List.take_of_length_le (by omega), if_pos (by omega)]

/-! ### The interpreter -/

section limit
variable {S : Setup} {R : Resolver} {E : Env1} (hb : 0 < S.bufsiz) (hE : Serves S R E)

include hE in
theorem getFont_limit {id spec f} (h : E.getFont id spec = .ok f) : Evt fun n => (S.env1 R n).getFont id spec = .ok f := by
  obtain ⟨k, hk⟩ := hE.fonts id spec f h
  exact ⟨k, fun n hn => buildFont_more _ k n hn _ _ hk⟩

include hb hE in
theorem content_limit1 {streams os} (h : E.content streams = (os, none)) : Evt fun n => (S.env1 R n).content streams = (os, none) :=
  content_limit hb (hE.content streams os h)

include hE in
theorem initFonts_limit (l : List (Key × Obj)) : ∀ s s', initFonts E l s = .ok s' → Evt fun n => initFonts (S.env1 R n) l s = .ok s' := by
  induction l with
  | nil => intro s s' h; exact .all fun n => h
  | cons e l ih =>
    obtain ⟨k, spec⟩ := e
    intro s s' h
    simp only [initFonts] at h
    rw [hE.resolver] at h
    cases h1 : R.dictValue spec with
    | error x => rw [h1] at h; cases h
    | ok d =>
      rw [h1] at h
      dsimp only at h
      cases h2 : E.getFont (refId spec) d with
      | error x => rw [h2] at h; cases h
      | ok f =>
        rw [h2] at h
        refine ((getFont_limit hE h2).and (ih _ _ h)).mono fun n hn => ?_
        simp only [initFonts]
        rw [show (S.env1 R n).R = R from rfl, h1]
        dsimp only
        rw [hn.1]
        exact hn.2

include hE in
theorem initEntry_limit (k : Key) (v : Obj) (s s') (h : initEntry E k v s = .ok s') : Evt fun n => initEntry (S.env1 R n) k v s = .ok s' := by
  unfold initEntry at h ⊢
  rw [hE.resolver] at h
  by_cases hk : k = nm "Font"
  · rw [if_pos hk] at h
    cases h1 : R.dictValue v with
    | error x => rw [h1] at h; cases h
    | ok d =>
      rw [h1] at h
      refine (initFonts_limit hE d s s' h).mono fun n hn => ?_
      rw [if_pos hk, show (S.env1 R n).R = R from rfl, h1]
      exact hn
  · refine .all fun n => ?_
    rw [if_neg hk] at h ⊢
    exact h

include hE in
theorem initEntries_limit (l : List (Key × Obj)) : ∀ s s', initEntries E l s = .ok s' → Evt fun n => initEntries (S.env1 R n) l s = .ok s' := by
  induction l with
  | nil => intro s s' h; exact .all fun n => h
  | cons e l ih =>
    obtain ⟨k, v⟩ := e
    intro s s' h
    simp only [initEntries] at h
    cases h1 : initEntry E k v s with
    | error x => rw [h1] at h; cases h
    | ok s1 =>
      rw [h1] at h
      refine ((initEntry_limit hE k v s s1 h1).and (ih _ _ h)).mono fun n hn => ?_
      simp only [initEntries]
      rw [hn.1]
      exact hn.2

include hE in
theorem prepState_limit {ctm res ig s} (h : prepState E ctm res ig = .ok s) : Evt fun n => prepState (S.env1 R n) ctm res ig = .ok s := by
  unfold prepState initResources at h ⊢
  dsimp only at h ⊢
  rw [hE.resolver] at h
  cases h1 : R.dictValue res with
  | error x => rw [h1] at h; cases h
  | ok d =>
    rw [h1] at h
    refine (initEntries_limit hE d _ _ h).mono fun n hn => ?_
    rw [show (S.env1 R n).R = R from rfl, h1]
    exact hn

include hE in
theorem finish_limit (nested : List Obj → St → Gen Item) (nested' : Nat → List Obj → St → Gen Item)
    (hn : ∀ st s is, nested st s = (is, none) → Evt fun n => nested' n st s = (is, none)) (g : GState) (is : List Item) :
    ∀ r, finish E nested g is = (r, none) → Evt fun n => finish (S.env1 R n) (nested' n) g is = (r, none) := by
  induction is with
  | nil => intro r h; exact .all fun _ => h
  | cons i is ih =>
    intro r h
    by_cases hx : ∃ st b res m cs, i = .xobj st b res m cs
    · obtain ⟨st, b, res, m, cs, rfl⟩ := hx
      simp only [finish] at h
      cases h1 : prepState E m res false with
      | error x => rw [h1] at h; cases h
      | ok s =>
        rw [h1] at h
        dsimp only at h
        rcases h2 : nested [st] { s with graphics := g } with ⟨items, _ | x⟩
        · rw [h2] at h
          dsimp only at h
          rcases h3 : finish E nested g is with ⟨r', _ | x⟩
          · rw [h3] at h
            refine ((prepState_limit hE h1).and ((hn _ _ _ h2).and (ih _ h3))).mono fun n hn => ?_
            simp only [finish]
            rw [hn.1]
            dsimp only
            rw [hn.2.1]
            dsimp only
            rw [hn.2.2]
            exact h
          · rw [h3] at h; cases h
        · rw [h2] at h; cases h
    · have e : ∀ (E : Env1) nested, finish E nested g (i :: is) = (i :: (finish E nested g is).1, (finish E nested g is).2) := by
        intro E nested
        cases i <;> first | rfl | exact absurd ⟨_, _, _, _, _, rfl⟩ hx
      rw [e] at h
      rcases h3 : finish E nested g is with ⟨r', _ | x⟩
      · rw [h3] at h
        refine (ih _ h3).mono fun n hn => ?_
        rw [e, hn]
        exact h
      · rw [h3] at h; cases h

include hE in
theorem runWith_limit (nested : List Obj → St → Gen Item) (nested' : Nat → List Obj → St → Gen Item)
    (hn : ∀ st s is, nested st s = (is, none) → Evt fun n => nested' n st s = (is, none)) (os : List Obj) :
    ∀ s r s', runWith E nested os none s = ((r, none), s') → Evt fun n => runWith (S.env1 R n) (nested' n) os none s = ((r, none), s') := by
  induction os with
  | nil => intro s r s' h; exact .all fun _ => h
  | cons o os ih =>
    intro s r s' h
    obtain ⟨s1, i1, i2, h1, h2, h3, rfl⟩ := runWith_cons h
    rw [hE.resolver] at h1
    refine ((finish_limit hE nested nested' hn _ _ _ h2).and (ih _ _ _ h3)).mono fun n hn => ?_
    simp only [runWith]
    rw [show (S.env1 R n).R = R from rfl, h1]
    dsimp only
    rw [hn.1]
    dsimp only
    rw [hn.2]

theorem runWith_some (E : Env1) (nested) (os : List Obj) (x : PyErr) : ∀ s r s', runWith E nested os (some x) s ≠ ((r, none), s') := by
  induction os with
  | nil => intro s r s' h; cases h
  | cons o os ih =>
    intro s r s' h
    obtain ⟨s1, i1, i2, h1, h2, h3, rfl⟩ := runWith_cons h
    exact ih _ _ _ h3

include hb hE in
/-- What the interpreter gives with the fonts and contents that are meant, it gives with those of the program, with enough fuel. -/
theorem run_limit (fuel : Nat) : ∀ (m : Nat → Nat), (Evt fun n => fuel ≤ m n) → ∀ streams s r s', run E fuel streams s = ((r, none), s') →
    Evt fun n => run (S.env1 R n) (m n) streams s = ((r, none), s') := by
  induction fuel with
  | zero => intro m _ streams s r s' h; simp only [run] at h; cases h
  | succ fuel ih =>
    intro m hm streams s r s' h
    simp only [run] at h
    rcases hc : E.content streams with ⟨os, e⟩
    rw [hc] at h
    dsimp only at h
    cases e with
    | some x => exact absurd h (runWith_some _ _ _ _ _ _ _)
    | none =>
      have h1 := runWith_limit hE (fun st s => (run E fuel st s).1) (fun n st s => (run (S.env1 R n) (m n - 1) st s).1) (by
        intro st s is hs
        refine (ih (fun n => m n - 1) (hm.mono fun n h => by omega) st s is (run E fuel st s).2 (Prod.ext hs rfl)).mono fun n hn => ?_
        rw [hn]) os s r s' h
      refine ((content_limit1 hb hE hc).and (hm.and h1)).mono fun n hn => ?_
      obtain ⟨h2, h3, h4⟩ := hn
      obtain ⟨k, hk⟩ : ∃ k, m n = k + 1 := ⟨m n - 1, by omega⟩
      rw [hk] at h4 ⊢
      simp only [run]
      rw [h2]
      exact h4
end limit

/-! ### The pages -/

theorem select_forall2 {α β : Type} {P : α → β → Prop} (pagenos : List Int) (maxpages : Int) {ps : List α} {ts : List β} (h : List.Forall₂ P ps ts) :
    ∀ n, List.Forall₂ P (selectFrom pagenos maxpages n ps none).1 (selectFrom pagenos maxpages n ts none).1 ∧
      (selectFrom pagenos maxpages n ps none).2 = none := by
  induction h with
  | nil => intro n; exact ⟨.nil, rfl⟩
  | cons h1 h2 ih =>
    intro n
    simp only [selectFrom]
    split
    · exact ih _
    · split
      · exact ⟨.cons h1 .nil, rfl⟩
      · exact ⟨.cons h1 (ih _).1, (ih _).2⟩

/-- With enough fuel the page is printed with its text. -/
def Prints (S : Setup) (R : Resolver) (ignoreBad : Bool) (n : Nat) (p : Page) (t : PyStr) : Prop :=
  ∃ ctm w h s items s', pageGeometry p.mediabox p.rotate = .ok (ctm, w, h) ∧ prepState (S.env1 R n) ctm p.resources ignoreBad = .ok s ∧
    run (S.env1 R n) n p.contents s = ((items, none), s') ∧ textItems items = t

theorem textPages_ok {S : Setup} {R : Resolver} {ignoreBad : Bool} {n : Nat} {ps : List Page} {ts : List PyStr}
    (h : List.Forall₂ (Prints S R ignoreBad n) ps ts) : ∀ num, (ts ≠ [] ∨ num ≠ 0) → textPages (S.env1 R n) n ignoreBad num ps none = (textOf num ts, none) := by
  induction h with
  | nil =>
    intro num hn
    simp only [textPages, textOf]
    rw [if_neg (by simpa using hn)]
  | cons h1 _ ih =>
    intro num _
    obtain ⟨ctm, w, h, s, items, s', h2, h3, h4, rfl⟩ := h1
    simp only [textPages, h2, h3, h4, ih (num + 1) (.inr (by omega)), textOf, textPage]

theorem page_prints {S : Setup} (hb : 0 < S.bufsiz) {objs : List (Int × Obj)} {ignoreBad : Bool} {p : Page} {leaf : Int × List Dict}
    {t : PyStr} (hp : PageOf (fileResolver objs) p leaf) (ht : PageText S (fileResolver objs) ignoreBad leaf.2 t) :
    Evt fun n => Prints S (fileResolver objs) ignoreBad n p t := by
  obtain ⟨o, a, b, c, d, h1, h2, ⟨x0, ha⟩, ⟨y0, hb'⟩, ⟨x1, hc⟩, ⟨y1, hd⟩⟩ := ht.box
  obtain ⟨E, res, contents, c', h3, h4, h5, h6, h7, h8, h9⟩ := ht.shows
  have hgeo : ∃ ctm w h, pageGeometry p.mediabox p.rotate = .ok (ctm, w, h) := by
    obtain ⟨o', h10, h11⟩ := hp.media
    rw [h1] at h10
    cases h10
    rw [h2] at h11
    rw [← Except.ok.inj h11]
    simp only [pageGeometry, Obj.num, ha, hb', hc, hd, bind, Except.bind]
    exact ⟨_, _, _, rfl⟩
  obtain ⟨ctm, w, h, hgeo⟩ := hgeo
  have hres : p.resources = .dict res := by
    have := hp.resources
    rw [h4] at this
    exact (Except.ok.inj this).symm
  have hcont : p.contents = streamsOf c' := by
    have := hp.contents
    rw [h6] at this
    obtain ⟨c2, h10, h11⟩ := this
    rw [h7] at h10
    cases h10
    exact h11
  obtain ⟨N, hN⟩ := well_formed_page E (by rw [h3.resolver]; intro d; rfl) res h5 ignoreBad _ h8 t h9
  obtain ⟨s, items, s', g1, g2, g3⟩ := hN N (Nat.le_refl _) ctm
  refine ((prepState_limit h3 g1).and (run_limit hb h3 N id (Evt.ge N) _ _ _ _ g2)).mono fun n hn => ?_
  exact ⟨ctm, w, h, s, items, s', hgeo, hres ▸ hn.1, hcont ▸ hn.2, ((pageShows_iff _ _).1 (g3 0 0 0)).symm⟩

theorem evt_forall2 {α β : Type} {P : Nat → α → β → Prop} {l : List α} {r : List β} (h : List.Forall₂ (fun a b => Evt fun n => P n a b) l r) :
    Evt fun n => List.Forall₂ (P n) l r := by
  induction h with
  | nil => exact .all fun _ => .nil
  | cons h _ ih => exact (h.and ih).mono fun n hn => .cons hn.1 hn.2

theorem forall2_comp {α β γ : Type} {P : α → β → Prop} {Q : β → γ → Prop} {T : α → γ → Prop} {a : List α} {b : List β} {c : List γ} (h : List.Forall₂ P a b)
    (h' : List.Forall₂ Q b c) (ht : ∀ x y z, P x y → Q y z → T x z) : List.Forall₂ T a c := by
  induction h generalizing c with
  | nil => cases h'; exact .nil
  | cons h1 _ ih => cases h' with | cons h2 h3 => exact .cons (ht _ _ _ h1 h2) (ih h3)

theorem forall2_left {α β : Type} {P : α → β → Prop} {l : List α} {r : List β} (h : List.Forall₂ P l r) {a : α} (ha : a ∈ l) : ∃ b, P a b := by
  induction h with
  | nil => cases ha
  | cons h1 _ ih =>
    rcases List.mem_cons.1 ha with rfl | ha
    · exact ⟨_, h1⟩
    · exact ih ha

/-- A document that is opened with these objects and this catalog is converted. -/
theorem opened_text (S : Setup) (hb : 0 < S.bufsiz) (data : Bytes) (opts : Options) (texts : List PyStr) {objs : List (Int × Obj)} {catalog : List (Key × Obj)} {o : Obj}
    {T : PageTree} (ho : dictGet catalog (nm "Pages") = some o) (hT : IsTree (fileResolver objs) o T)
    (ht : List.Forall₂ (fun leaf t => PageText S (fileResolver objs) opts.ignoreBad leaf.2 t) (T.leaves [catalog]) texts)
    (hopen : Evt fun n => ∃ O, openDocument S opts.password opts.caching n data = .ok O ∧ refused opts.checkExtractable O.cipher = false ∧ O.catalog = catalog ∧
      O.resolver opts.caching n = fileResolver objs)
    (maxpages : Nat) (hmax : opts.maxpages = maxpages) (shown : List PyStr)
    (hs : shown = (texts.zipIdx.filter fun x => decide (Wanted opts.pagenos x.2 ∧ ∀ j < x.2, Wanted opts.pagenos j → maxpages = 0 ∨ j + 1 < maxpages)).map Prod.fst)
    (hne : shown ≠ []) : ∃ N, ∀ fuel ≥ N, convertText S opts fuel data = (textOf 0 shown, none) := by
  have hd : ∀ o, (∀ i g, o ≠ .ref i g) → (fileResolver objs).resolve1 o = .ok o := by
    intro o ho
    cases o <;> first | rfl | exact absurd rfl (ho _ _)
  have hleaf : ∀ leaf ∈ T.leaves [catalog], ∃ t, PageText S (fileResolver objs) opts.ignoreBad leaf.2 t := by
    intro leaf hl
    obtain ⟨t, ht⟩ := forall2_left ht hl
    exact ⟨t, ht⟩
  have htne : texts ≠ [] := by rintro rfl; exact hne (by rw [hs]; rfl)
  obtain ⟨N, ps, g1, g2⟩ := pages_of_tree (fileResolver objs) hd catalog o T ho hT (by intro e; rw [e] at ht; cases ht; exact htne rfl)
    (fun leaf hl => (hleaf leaf hl).choose_spec.attributes) (fun leaf hl => by
      obtain ⟨t, ht⟩ := hleaf leaf hl
      obtain ⟨o, _, _, _, _, hm, _⟩ := ht.box
      rw [hm]; simp)
  have hp : Evt fun n => List.Forall₂ (Prints S (fileResolver objs) opts.ignoreBad n) ps texts :=
    evt_forall2 (forall2_comp g2 ht fun p leaf t hp ht => page_prints hb hp ht)
  refine (hopen.and (hp.and (Evt.ge N))).mono fun n hn => ?_
  obtain ⟨⟨O, k1, k0, k2, k3⟩, k4, k5⟩ := hn
  have hsel := select_forall2 opts.pagenos maxpages k4 0
  have hshow : (selectFrom opts.pagenos maxpages 0 texts none).1 = shown := by rw [hs]; exact select_exact opts.pagenos maxpages texts none
  rw [hshow] at hsel
  unfold convertText selectPages
  rw [k1]
  dsimp only
  rw [k0, k3, k2, g1 _ n k5, hmax]
  dsimp only
  rw [hsel.2]
  exact textPages_ok hsel.1 0 (.inl hne)

/-- **C90.** From the file to the text. The text file has, for each page that is asked for, in the order of the page tree, a line with its number
and its text. -/
theorem file_text (S : Setup) (hb : 0 < S.bufsiz) (data : Bytes) (opts : Options) (texts : List PyStr) (h : Document S opts.ignoreBad data texts)
    (maxpages : Nat) (hmax : opts.maxpages = maxpages) (shown : List PyStr)
    (hs : shown = (texts.zipIdx.filter fun x => decide (Wanted opts.pagenos x.2 ∧ ∀ j < x.2, Wanted opts.pagenos j → maxpages = 0 ∨ j + 1 < maxpages)).map Prod.fst)
    (hne : shown ≠ []) : ∃ N, ∀ fuel ≥ N, convertText S opts fuel data = (textOf 0 shown, none) := by
  obtain ⟨secs, objs, before, t, after, root, catalog, o, T, h1, h2, h3, h4, h5, h6, h7, h8, h9, h10, h11⟩ := h
  refine opened_text S hb data opts texts h9 h10 h11 ((document_open hb h1 h2 h3 h4 h5 h6 h7 h8 opts.password opts.caching).mono ?_) maxpages hmax shown hs hne
  rintro n ⟨O, k1, k2, k3, k4⟩
  exact ⟨O, k1, by rw [k2]; rfl, k3, k4⟩

end Pdf
