import Verif.Model.Fallback
import Verif.Spec.Recovery
import Verif.Props.Sections
/-! Lemmas about the scan for objects. -/

namespace Pdf
open Spec

variable {σ : Type}

theorem spaceL_iff : ∀ c : UInt8, isSpaceL c = true ↔ SpaceL c := by
  refine forall_byte ?_; decide +kernel

theorem wordL_iff : ∀ c : UInt8, isWordL c = true ↔ WordL c := by
  have : ∀ c : UInt8, Decidable (WordL c) := fun c => by unfold WordL; infer_instance
  refine forall_byte ?_
  unfold WordL
  decide +kernel

theorem spaceL_not_digit : ∀ c : UInt8, SpaceL c → ¬ Digit c := by
  refine forall_byte ?_; decide +kernel

theorem digit_not_spaceL {c : UInt8} (h : Digit c) : ¬ SpaceL c := fun hs => spaceL_not_digit c hs h

theorem digitsVal_decimal (ds : Bytes) : digitsVal ds = decimal ds := by
  have : ∀ (ds : Bytes) (n : Nat), ds.foldl (fun n c => n * 10 + (c.toNat - 48)) n = n * 10 ^ ds.length + decimal ds := by
    intro ds
    induction ds with
    | nil => intro n; simp [decimal]
    | cons c cs ih =>
      intro n
      rw [List.foldl_cons, ih, decimal, List.length_cons, Nat.pow_succ, Nat.add_mul, Nat.mul_assoc, Nat.mul_comm 10, Nat.add_assoc]
  rw [digitsVal, this]; simp

/-- Taking a run off the front. -/
theorem takeWhile_run {p : UInt8 → Bool} (a b : Bytes) (ha : ∀ c ∈ a, p c = true) (hb : ∀ c ∈ b.head?, p c = false) :
    (a ++ b).takeWhile p = a ∧ (a ++ b).dropWhile p = b := by
  induction a with
  | nil =>
    cases b with
    | nil => simp
    | cons c cs =>
      have := hb c (by simp)
      simp [this]
  | cons c cs ih =>
    have := ha c (by simp)
    obtain ⟨h1, h2⟩ := ih fun x hx => ha x (by simp [hx])
    rw [List.cons_append, List.takeWhile_cons_of_pos this, List.dropWhile_cons_of_pos this, h1, h2]
    exact ⟨rfl, rfl⟩

theorem head_of_all {P : UInt8 → Prop} {a : Bytes} (hne : a ≠ []) (h : ∀ c ∈ a, P c) (b : Bytes) : ∀ c ∈ (a ++ b).head?, P c := by
  cases a with
  | nil => exact absurd rfl hne
  | cons c cs => simp; exact h c (by simp)

theorem cue_some {l : Bytes} {i g : Nat} (h : Cue l i g) : objCue l = some (i, g) := by
  cases h with
  | @mk d1 s1 d2 s2 r n1 ne1 hs1 n2 ne2 hs2 hr =>
    have dig : ∀ {ds : Bytes}, Num ds → ∀ c ∈ ds, isDigit c = true := fun h c hc => (digit_iff _).2 (h.2 c hc)
    have spa : ∀ {ds : Bytes}, (∀ c ∈ ds, SpaceL c) → ∀ c ∈ ds, isSpaceL c = true := fun h c hc => (spaceL_iff _).2 (h c hc)
    have nd : ∀ c, SpaceL c → isDigit c = false := fun c hc => by
      rw [← Bool.not_eq_true, digit_iff]; exact spaceL_not_digit c hc
    have ns : ∀ c, Digit c → isSpaceL c = false := fun c hc => by
      rw [← Bool.not_eq_true, spaceL_iff]; exact digit_not_spaceL hc
    obtain ⟨a1, b1⟩ := takeWhile_run (p := isDigit) d1 (s1 ++ (d2 ++ (s2 ++ ([111, 98, 106] ++ r)))) (dig n1)
      (head_of_all ne1 (fun c hc => nd c (hs1 c hc)) _)
    obtain ⟨a2, b2⟩ := takeWhile_run (p := isSpaceL) s1 (d2 ++ (s2 ++ ([111, 98, 106] ++ r))) (spa hs1)
      (head_of_all n2.1 (fun c hc => ns c (n2.2 c hc)) _)
    obtain ⟨a3, b3⟩ := takeWhile_run (p := isDigit) d2 (s2 ++ ([111, 98, 106] ++ r)) (dig n2)
      (head_of_all ne2 (fun c hc => nd c (hs2 c hc)) _)
    obtain ⟨a4, b4⟩ := takeWhile_run (p := isSpaceL) s2 ([111, 98, 106] ++ r) (spa hs2) (by simp; decide)
    unfold objCue
    dsimp only
    rw [b1, b2, b3, b4, a1, a2, a3, a4, if_neg (by simp [n1.1, ne1, n2.1, ne2])]
    rw [if_pos (by simp [kwObj]), digitsVal_decimal, digitsVal_decimal]
    rw [show List.drop 3 ([111, 98, 106] ++ r) = r from rfl]
    cases r with
    | nil => rfl
    | cons c cs =>
      dsimp only
      rw [if_neg]
      rw [wordL_iff]; exact hr c (by simp)

theorem cue_of_parts {l d1 r1 s1 r2 d2 r3 s2 r4 r : Bytes} (e1 : l = d1 ++ r1) (e2 : r1 = s1 ++ r2) (e3 : r2 = d2 ++ r3) (e4 : r3 = s2 ++ r4)
    (e5 : r4 = kwObj ++ r) (h1 : Num d1) (h2 : s1 ≠ []) (h3 : ∀ c ∈ s1, SpaceL c) (h4 : Num d2) (h5 : s2 ≠ []) (h6 : ∀ c ∈ s2, SpaceL c)
    (h7 : ∀ c ∈ r.head?, ¬ WordL c) : Cue l (decimal d1) (decimal d2) := by
  subst e5 e4 e3 e2 e1
  exact Cue.mk h1 h2 h3 h4 h5 h6 h7

theorem cue_none {l : Bytes} (h : ∀ i g, ¬ Cue l i g) : objCue l = none := by
  cases hc : objCue l with
  | none => rfl
  | some x =>
    exfalso
    unfold objCue at hc
    dsimp only at hc
    split at hc
    · cases hc
    · rename_i hne
      simp only [not_or] at hne
      split at hc
      · rename_i hp
        have tw : ∀ (p : UInt8 → Bool) (w : Bytes), ∀ c ∈ w.takeWhile p, p c = true := by
          intro p w c hc
          induction w with
          | nil => simp at hc
          | cons x xs ih =>
            rw [List.takeWhile_cons] at hc
            split at hc
            · rcases List.mem_cons.1 hc with rfl | hc
              · assumption
              · exact ih hc
            · simp at hc
        obtain ⟨r, hr⟩ := List.isPrefixOf_iff_prefix.1 hp
        have hw : ∀ c ∈ r.head?, ¬ WordL c := by
          rw [← hr, show List.drop 3 (kwObj ++ r) = r from rfl] at hc
          intro c hcr hw
          cases r with
          | nil => simp at hcr
          | cons x xs =>
            obtain rfl : x = c := by simpa using hcr
            dsimp only at hc
            rw [if_pos ((wordL_iff x).2 hw)] at hc
            cases hc
        exact h _ _ (cue_of_parts (List.takeWhile_append_dropWhile).symm (List.takeWhile_append_dropWhile).symm (List.takeWhile_append_dropWhile).symm
          (List.takeWhile_append_dropWhile).symm hr.symm
          ⟨hne.1, fun c hc => (digit_iff _).1 (tw _ _ c hc)⟩ hne.2.1 (fun c hc => (spaceL_iff _).1 (tw _ _ c hc))
          ⟨hne.2.2.1, fun c hc => (digit_iff _).1 (tw _ _ c hc)⟩ hne.2.2.2 (fun c hc => (spaceL_iff _).1 (tw _ _ c hc)) hw)
      · cases hc

/-! ### Reading objects, with the state -/

theorem Ready.token {data p ps} (h : Ready data p ps) {b : Nat} (hb : 0 < b) {t : Nat × Tok} {ts e} (hs : ps.stream = (t :: ts, e)) :
    ∃ ps' p', ps.nexttoken b = (.ok t, ps') ∧ Ready data p' ps' ∧ ps'.stream = (ts, e) := by
  have h1 := nexttoken_spec hb ps h.good.inv
  rw [hs] at h1
  obtain ⟨h1, h2, h3⟩ := h1
  have hd : ps.nexttoken b = (.ok t, (ps.nexttoken b).2) := by rw [← h2]
  have h4 := nexttoken_end hb ps h.good h.toks h.main hd
  exact ⟨_, _, hd, ⟨h4.good, h4.cpos, h4.toks, h4.main, by rw [h4.data, h.data], rfl⟩, h3⟩

theorem Ready.keyword' {data p ps} (h : Ready data p ps) {b : Nat} (hb : 0 < b) {c : UInt8} {cs : Bytes} {q : Nat} {ts e}
    (hs : ps.stream = ((q, .kw (c :: cs)) :: ts, e)) (hc : isAlpha c = true) :
    ∃ ps', ps.nexttoken b = (.ok (q, .kw (c :: cs)), ps') ∧ Ready data (q + (c :: cs).length) ps' :=
  h.keyword hb (by rw [← h.stream]; exact hs) hc

theorem nextobjectG_feedAll (env : Env σ) {b : Nat} (hb : 0 < b) (data : Bytes) (pts : List (Nat × Tok)) (ts e) {st st' : StackSt} (fuel : Nat) {ps : PSt} {p : Nat}
    (hp : Ready data p ps) (hstr : ps.stream = (pts ++ ts, e))
    (hs : feedAll fileHooks st pts = .ok st') (hr : st'.results = []) (hn : .kw kwStream ∉ pts.map Prod.snd) (s : σ) :
    ∃ ps' p', nextobjectG env b (fuel + pts.length) ps st s = nextobjectG env b fuel ps' st' s ∧ Ready data p' ps' ∧ ps'.stream = (ts, e) := by
  induction pts generalizing st ps p with
  | nil => simp only [feedAll, Except.ok.injEq] at hs; subst hs; exact ⟨ps, p, rfl, hp, hstr⟩
  | cons x xs ih =>
    obtain ⟨q, t⟩ := x
    simp only [feedAll] at hs
    cases hq : st.feed fileHooks q t with
    | error e => rw [hq] at hs; cases hs
    | ok st1 =>
      rw [hq] at hs
      obtain ⟨r1, h1⟩ := feed_results frame_file hq
      obtain ⟨r2, h2⟩ := feedAll_results frame_file xs hs
      have h0 : st.results = [] := by
        rw [h2, h1] at hr
        simp only [List.append_eq_nil_iff] at hr; exact hr.1.1
      simp only [List.map_cons, List.mem_cons, not_or] at hn
      obtain ⟨ps1, p1, g1, g2, g3⟩ := hp.token hb (t := (q, t)) (ts := xs ++ ts) (e := e) hstr
      obtain ⟨ps2, p2, g4, g5, g6⟩ := ih g2 g3 hs hn.2
      refine ⟨ps2, p2, ?_, g5, g6⟩
      rw [List.length_cons, ← Nat.add_assoc, nextobjectG, h0, g1]
      dsimp only
      unfold fileStep
      rw [if_neg (fun e => hn.1 e.symm), hq]
      exact g4

/-- An object that is not a stream, read from `i g obj` on: the parser then stands right behind `endobj`. -/
theorem object_then {b : Nat} (hb : 0 < b) (env : Env σ) (data : Bytes) (p : Nat) (i g : Int) (pre rest : Bytes) (pts : List (Nat × Tok)) (ts : List Tok)
    (o : Obj) (hdata : data.drop p = pre ++ (kwEndobj ++ rest)) (ht : Text p pts pre (kwEndobj ++ rest))
    (hp : pts.map Prod.snd = [.int i, .int g, .kw kwObj] ++ ts) (hw : Writes fileDialect ts o) (hend : ∃ c r, rest = c :: r ∧ Delim c ∧ c ≠ 35)
    (fuel : Nat) (hf : pts.length + 2 ≤ fuel) (s : σ) :
    ∃ q st ps, nextobjectG env b fuel (PSt.seek data p) {} s = (.ok (q, .int i), (ps, st), s) ∧ Ready data (p + pre.length + 6) ps := by
  have hseq : WritesSeq fileDialect ([.int i] ++ ([.int g] ++ ([.kw kwObj] ++ (ts ++ [])))) [.int i, .int g, .kw kwObj, o] :=
    .cons (.int i) (.cons (.int g) (.cons (.kw _ (by unfold fileDialect; decide)) (.cons hw .nil)))
  have hp' : pts.map Prod.snd = [.int i] ++ ([.int g] ++ ([.kw kwObj] ++ (ts ++ []))) := by simpa using hp
  obtain ⟨pos, hpos, hfeed⟩ := pushesSeq speaks_file hseq {} pts (Or.inr fun _ => rfl) hp'
  have hns : .kw kwStream ∉ pts.map Prod.snd := by rw [hp']; exact writesSeq_no_stream hseq
  have hk : lexRun {} p (data.drop p) = (pts ++ ((p + pre.length, .kw kwEndobj) :: (lexRun {} (p + pre.length + 6) rest).1), (lexRun {} (p + pre.length + 6) rest).2) := by
    rw [hdata, run_text ht]
    have hs : Spells kwEndobj (.kw kwEndobj) .delimiter := Spells.keyword (c := 101) (cs := [110, 100, 111, 98, 106]) (by decide) (by decide) (by decide) (by decide)
    have := run_text (p := p + pre.length) (Text.tok hs (a := []) (b := rest) hend .nil)
    rw [List.append_nil] at this
    rw [this]
    rfl
  obtain ⟨f, rfl⟩ : ∃ f, fuel = f + 1 + 1 + pts.length := ⟨fuel - 2 - pts.length, by omega⟩
  obtain ⟨ps', p', g1, g2, g3⟩ := nextobjectG_feedAll env hb data pts _ _ (f + 1 + 1) (ready_seek data p) (by rw [stream_seek, hk]) hfeed rfl hns s
  rw [g1]
  obtain ⟨ps2, g4, g5⟩ := g2.keyword' hb (c := 101) (cs := [110, 100, 111, 98, 106]) g3 (by decide)
  rw [nextobjectG]
  dsimp only
  rw [g4]
  dsimp only
  unfold fileStep
  rw [if_neg (by decide)]
  have hl : pos.length = 4 := by rw [← List.length_map (f := Prod.snd), hpos]; rfl
  have hfe := feed_endobj { ({} : StackSt) with curstack := ([] : List (Nat × Obj)) ++ pos } (p + pre.length) pos (by omega) (by simp)
  rw [show [101, 110, 100, 111, 98, 106] = kwEndobj from rfl, hfe]
  cases pos with
  | nil => cases hl
  | cons x xs =>
    obtain ⟨q, o1⟩ := x
    simp only [List.map_cons, List.cons.injEq] at hpos
    obtain ⟨rfl, _⟩ := hpos
    dsimp only
    rw [nextobjectG]
    exact ⟨q, _, ps2, rfl, g5⟩

/-- The word `stream` when streams end at the first `endstream`. -/
theorem streamKw_first {b : Nat} (hb : 0 < b) (env : Env σ) (henv : env.Direct) (hf : env.fallback = true) (data : Bytes) (p : Nat) (eol body rest : Bytes)
    (d : List (Key × Obj)) (st : StackSt) (q : Nat) (cs : List (Nat × Obj)) (hcs : st.curstack = cs ++ [(q, .dict d)])
    (hdata : data.drop p = kwStream ++ (eol ++ (body ++ (kwEndstream ++ rest)))) (heol : StreamEol eol (body ++ (kwEndstream ++ rest)))
    (hfirst : ∀ j < body.length, ¬ kwEndstream <+: (body ++ (kwEndstream ++ rest)).drop j) (hline : ¬ Unfinished rest) (s : σ) :
    streamKw env b data st p s =
      (.ok (PSt.seek data (p + (kwStream ++ eol).length + body.length), StackSt.push {} (p + (kwStream ++ eol).length, .stream d body)), s) := by
  have hdv : env.dictValue (.dict d) s = (.ok d, s) := by rw [Env.dictValue, henv _ s (by simp)]
  have hol : env.objlen d s = (.ok (0 : Nat), s) := by simp [Env.objlen, hf]
  have hd' : data.drop p = (kwStream ++ eol) ++ (body ++ (kwEndstream ++ rest)) := by rw [hdata]; simp
  obtain ⟨ps1, g1, _⟩ := (ready_seek data p).line hb hd' (streamEol_line heol)
  have hdP : data.drop (p + (kwStream ++ eol).length) = body ++ (kwEndstream ++ rest) := by
    rw [← List.drop_drop, hd', List.drop_left]
  unfold streamKw
  simp only [StackSt.pop, hcs, List.length_append, List.length_singleton, Nat.add_sub_cancel, List.drop_left]
  rw [hdv]
  dsimp only
  rw [hol]
  dsimp only
  rw [g1]
  dsimp only
  generalize hP : p + (kwStream ++ eol).length = P at hdP
  have hr := ready_seek data P
  have hscan : scanEnd b (data.length + 1) (PSt.seek data P) 0 [] = (body.length, body) := by
    rw [scanEnd_eq hb _ _ hr.good.inv hr.cpos, hr.unread, hdP, ← List.append_assoc, scanU_first _ body rest 0 [] ?_ ?_ hline]
    · simp
    · have := congrArg List.length hdP
      simp only [List.length_drop, List.length_append] at this ⊢
      omega
    · intro j hj hpp
      exact hfirst j (by simpa using hj) (by simpa using hpp)
  unfold streamBody
  dsimp only
  rw [show (P : Int) + ((0 : Nat) : Int) = ((P : Nat) : Int) by omega, if_neg (by omega), Int.toNat_natCast, hscan, hf]
  have e1 : p + (kwStream.length + eol.length) = P := by rw [← hP]; simp
  simp [readAt, e1]

/-- A stream object, read from `i g obj` on, in a file without usable cross-reference data. -/
theorem stream_then {b : Nat} (hb : 0 < b) (env : Env σ) (henv : env.Direct) (hf : env.fallback = true) (data : Bytes) (p : Nat) (i g : Int)
    (pre eol body rest gap tail : Bytes) (pts : List (Nat × Tok)) (ts : List Tok) (d : List (Key × Obj))
    (hdata : data.drop p = pre ++ (kwStream ++ (eol ++ (body ++ (kwEndstream ++ rest)))))
    (ht : Text p pts pre (kwStream ++ (eol ++ (body ++ (kwEndstream ++ rest)))))
    (hp : pts.map Prod.snd = [.int i, .int g, .kw kwObj] ++ ts) (hw : Writes fileDialect ts (.dict d))
    (heol : StreamEol eol (body ++ (kwEndstream ++ rest)))
    (hfirst : ∀ j < body.length, ¬ kwEndstream <+: (body ++ (kwEndstream ++ rest)).drop j)
    (hrest : rest = gap ++ (kwEndobj ++ tail)) (hgap : gap ≠ []) (hgapw : ∀ c ∈ gap, White c) (hend : ∃ c r, tail = c :: r ∧ Delim c ∧ c ≠ 35)
    (hline : ¬ Unfinished rest) (fuel : Nat) (hfu : pts.length + 4 ≤ fuel) (s : σ) :
    ∃ q st ps, nextobjectG env b fuel (PSt.seek data p) {} s = (.ok (q, .stream d body), (ps, st), s) ∧
      Ready data (p + pre.length + (kwStream ++ eol).length + body.length + kwEndstream.length + gap.length + 6) ps := by
  have hseq : WritesSeq fileDialect ([.int i] ++ ([.int g] ++ ([.kw kwObj] ++ (ts ++ [])))) [.int i, .int g, .kw kwObj, .dict d] :=
    .cons (.int i) (.cons (.int g) (.cons (.kw _ (by unfold fileDialect; decide)) (.cons hw .nil)))
  have hp' : pts.map Prod.snd = [.int i] ++ ([.int g] ++ ([.kw kwObj] ++ (ts ++ []))) := by simpa using hp
  obtain ⟨pos, hpos, hfeed⟩ := pushesSeq speaks_file hseq {} pts (Or.inr fun _ => rfl) hp'
  have hns : .kw kwStream ∉ pts.map Prod.snd := by rw [hp']; exact writesSeq_no_stream hseq
  have hks : lexRun {} (p + pre.length) (kwStream ++ (eol ++ (body ++ (kwEndstream ++ rest)))) =
      Stream.pre [(p + pre.length, .kw kwStream)] (lexRun {} (p + pre.length + kwStream.length) (eol ++ (body ++ (kwEndstream ++ rest)))) := by
    have := run_text (p := p + pre.length) (Text.tok (a := []) (b := eol ++ (body ++ (kwEndstream ++ rest)))
      (e := kwStream) (t := .kw kwStream) (k := .delimiter)
      (Spells.keyword (c := 115) (cs := [116, 114, 101, 97, 109]) (by decide) (by decide) (by decide) (by decide)) ?_ .nil)
    · simpa using this
    · revert heol
      generalize body ++ (kwEndstream ++ rest) = W
      intro heol
      cases heol with
      | lf => exact ⟨10, _, rfl, by decide, by decide⟩
      | crlf => exact ⟨13, _, rfl, by decide, by decide⟩
      | cr hc => exact ⟨13, _, rfl, by decide, by decide⟩
  have hk : lexRun {} p (data.drop p) = (pts ++ ((p + pre.length, .kw kwStream) :: (lexRun {} (p + pre.length + kwStream.length) (eol ++ (body ++ (kwEndstream ++ rest)))).1),
      (lexRun {} (p + pre.length + kwStream.length) (eol ++ (body ++ (kwEndstream ++ rest)))).2) := by
    rw [hdata, run_text ht, hks]
    rfl
  obtain ⟨f, rfl⟩ : ∃ f, fuel = f + 1 + 1 + 1 + 1 + pts.length := ⟨fuel - 4 - pts.length, by omega⟩
  obtain ⟨ps', p', g1, g2, g3⟩ := nextobjectG_feedAll env hb data pts _ _ (f + 1 + 1 + 1 + 1) (ready_seek data p) (by rw [stream_seek, hk]) hfeed rfl hns s
  rw [g1]
  obtain ⟨ps2, g4, g5⟩ := g2.keyword' hb (c := 115) (cs := [116, 114, 101, 97, 109]) g3 (by decide)
  -- the word `stream`
  obtain ⟨pp, q, hq⟩ : ∃ pp q, pos = pp ++ [(q, .dict d)] := by
    obtain ⟨a, b', rfl, _, hb'⟩ := List.map_eq_append_iff.1 (show pos.map Prod.snd = [.int i, .int g, .kw kwObj] ++ [.dict d] from hpos)
    obtain ⟨⟨q, o⟩, r, rfl, ho, hr⟩ := List.map_eq_cons_iff.1 hb'
    obtain rfl : r = [] := by simpa using hr
    dsimp only at ho
    subst ho
    exact ⟨a, q, rfl⟩
  have hdp : data.drop (p + pre.length) = kwStream ++ (eol ++ (body ++ (kwEndstream ++ rest))) := by
    rw [← List.drop_drop, hdata, List.drop_left]
  have hsk := streamKw_first hb env henv hf data (p + pre.length) eol body rest d { curstack := ([] : List (Nat × Obj)) ++ pos } q pp (by simp [hq]) hdp heol hfirst hline s
  rw [nextobjectG]
  dsimp only
  rw [g4]
  dsimp only
  unfold fileStep
  rw [if_pos (by rfl), g5.data, hsk]
  dsimp only
  -- `endstream` and `endobj`
  generalize hP : p + pre.length + (kwStream ++ eol).length = P
  have hdP : data.drop (P + body.length) = kwEndstream ++ rest := by
    rw [← hP, ← List.drop_drop, ← List.drop_drop, hdp, show kwStream ++ (eol ++ (body ++ (kwEndstream ++ rest))) = (kwStream ++ eol) ++ (body ++ (kwEndstream ++ rest)) by simp,
      List.drop_left, List.drop_left]
  have h1 : Spells kwEndstream (.kw kwEndstream) .delimiter :=
    Spells.keyword (c := 101) (cs := [110, 100, 115, 116, 114, 101, 97, 109]) (by decide) (by decide) (by decide) (by decide)
  have h2 : Spells kwEndobj (.kw kwEndobj) .delimiter :=
    Spells.keyword (c := 101) (cs := [110, 100, 111, 98, 106]) (by decide) (by decide) (by decide) (by decide)
  have hw' : ∀ (g : Bytes) (p : Nat), (∀ c ∈ g, White c) → Text p [(p + g.length, .kw kwEndobj)] (g ++ kwEndobj) tail := by
    intro g
    induction g with
    | nil => intro p _; exact .tok h2 (a := []) hend .nil
    | cons c cs ih =>
      intro p h
      have := ih (p + 1) fun x hx => h x (by simp [hx])
      rw [List.length_cons, show p + (cs.length + 1) = p + 1 + cs.length by omega]
      exact .white (h c (by simp)) this
  have hmid : Text (P + body.length) [(P + body.length, .kw kwEndstream), (P + body.length + kwEndstream.length + gap.length, .kw kwEndobj)] (kwEndstream ++ (gap ++ kwEndobj)) tail := by
    refine .tok h1 (a := gap ++ kwEndobj) ?_ (hw' gap _ hgapw)
    cases gap with
    | nil => exact absurd rfl hgap
    | cons c cs =>
      refine ⟨c, cs ++ kwEndobj ++ tail, by simp, ?_, ?_⟩
      · exact Or.inl (hgapw c (by simp))
      · have := hgapw c (by simp)
        rintro rfl
        revert this; decide
  have hk2 : (PSt.seek data (P + body.length)).stream = ([(P + body.length, .kw kwEndstream), (P + body.length + kwEndstream.length + gap.length, .kw kwEndobj)] ++
      (lexRun {} (P + body.length + (kwEndstream ++ (gap ++ kwEndobj)).length) tail).1, (lexRun {} (P + body.length + (kwEndstream ++ (gap ++ kwEndobj)).length) tail).2) := by
    rw [stream_seek, hdP, hrest, show kwEndstream ++ (gap ++ (kwEndobj ++ tail)) = (kwEndstream ++ (gap ++ kwEndobj)) ++ tail by simp, run_text hmid]
    rfl
  obtain ⟨ps3, p3, k1, k2, k3⟩ := (ready_seek data (P + body.length)).token hb hk2
  obtain ⟨ps4, k4, k5⟩ := k2.keyword' hb (c := 101) (cs := [110, 100, 111, 98, 106]) k3 (by decide)
  rw [nextobjectG]
  simp only [StackSt.push]
  rw [k1]
  dsimp only
  unfold fileStep
  rw [if_neg (by decide)]
  have hf1 : StackSt.feed fileHooks { context := [], curtype := none, curstack := [(P, .stream d body)], results := [] } (P + body.length) (.kw kwEndstream) =
      .ok { context := [], curtype := none, curstack := [(P, .stream d body), (P + body.length, .kw kwEndstream)], results := [] } := by
    rw [feed_atom (o := .kw kwEndstream) (Or.inr fun _ => rfl) _ ?_]
    · rfl
    · rw [feedBody_kw _ _ (by decide)]
      simp [fileHooks, fileKeyword, kwXref, kwStartxref, kwEndobj, kwNull, kwR, kwEndstream]
  rw [List.nil_append, hf1]
  dsimp only
  rw [nextobjectG]
  dsimp only
  rw [k4]
  dsimp only
  unfold fileStep
  rw [if_neg (by decide), show [101, 110, 100, 111, 98, 106] = kwEndobj from rfl, feed_endobj _ _ _ (by simp) rfl]
  dsimp only
  rw [nextobjectG]
  exact ⟨P, _, ps4, rfl, k5⟩

end Pdf
