import Verif.Proofs.Stream
import Verif.Props.StackParser
/-! C27: stream extraction. -/

namespace Pdf
open Spec

variable {σ : Type}

theorem feed_results {h : Hooks} (hf : h.Frame) {st st' : StackSt} {p t} (hs : st.feed h p t = .ok st') : ∃ r, st'.results = st.results ++ r := by
  have := frame_feed hf { st with results := [] } st.results p t
  rw [show (StackSt.pre st.results { st with results := [] } : StackSt) = st by simp [StackSt.pre]] at this
  rw [hs] at this
  cases hq : StackSt.feed h { st with results := [] } p t with
  | error e => rw [hq] at this; simp [mapOk] at this
  | ok s =>
    rw [hq] at this
    simp only [mapOk, Except.ok.injEq] at this
    exact ⟨s.results, by rw [this]; rfl⟩

theorem feedAll_results {h : Hooks} (hf : h.Frame) (pts : List (Nat × Tok)) {st st' : StackSt} (hs : feedAll h st pts = .ok st') :
    ∃ r, st'.results = st.results ++ r := by
  induction pts generalizing st with
  | nil => simp only [feedAll, Except.ok.injEq] at hs; subst hs; exact ⟨[], by simp⟩
  | cons x xs ih =>
    obtain ⟨p, t⟩ := x
    simp only [feedAll] at hs
    cases hq : st.feed h p t with
    | error e => rw [hq] at hs; cases hs
    | ok s =>
      rw [hq] at hs
      obtain ⟨r1, h1⟩ := feed_results hf hq
      obtain ⟨r2, h2⟩ := ih hs
      exact ⟨r1 ++ r2, by rw [h2, h1, List.append_assoc]⟩

theorem nextA_feedAll (env : Env σ) (data : Bytes) (pts : List (Nat × Tok)) (ts e) {st st' : StackSt} (fuel : Nat)
    (hs : feedAll fileHooks st pts = .ok st') (hr : st'.results = []) (hn : .kw kwStream ∉ pts.map Prod.snd) (s : σ) :
    nextA env data (fuel + pts.length) (pts ++ ts, e) st s = nextA env data fuel (ts, e) st' s := by
  induction pts generalizing st with
  | nil => simp only [feedAll, Except.ok.injEq] at hs; subst hs; rfl
  | cons x xs ih =>
    obtain ⟨p, t⟩ := x
    simp only [feedAll] at hs
    cases hq : st.feed fileHooks p t with
    | error e => rw [hq] at hs; cases hs
    | ok st1 =>
      rw [hq] at hs
      obtain ⟨r1, h1⟩ := feed_results frame_file hq
      obtain ⟨r2, h2⟩ := feedAll_results frame_file xs hs
      have h0 : st.results = [] := by
        rw [h2, h1] at hr
        simp only [List.append_eq_nil_iff] at hr; exact hr.1.1
      simp only [List.map_cons, List.mem_cons, not_or] at hn
      rw [List.length_cons, ← Nat.add_assoc]
      rw [nextA.eq_def]
      dsimp only [List.cons_append]
      rw [h0]
      dsimp only
      rw [if_neg (fun e => hn.1 e.symm), hq]
      exact ih hs hn.2

mutual
theorem writes_no_stream {ts : List Tok} {o : Obj} (hw : Writes fileDialect ts o) : .kw kwStream ∉ ts :=
  match hw with
  | .int n => by simp
  | .real m k => by simp
  | .bool b => by simp
  | .str s => by simp
  | .name n => by simp
  | .null hn => by simp [kwStream]
  | .ref i g hr => by simp [kwStream]
  | .kw n hn => by
    intro h
    simp only [List.mem_singleton, Tok.kw.injEq] at h
    subst h
    exact hn.2 (by simp [kwStream])
  | .arr hs => by have := writesSeq_no_stream hs; simp [kwStream] at this ⊢; exact this
  | .proc hs => by have := writesSeq_no_stream hs; simp [kwStream] at this ⊢; exact this
  | .dict hs _ _ => by have := writesSeq_no_stream hs; simp [kwStream] at this ⊢; exact this
theorem writesSeq_no_stream {ts : List Tok} {os : List Obj} (hw : WritesSeq fileDialect ts os) : .kw kwStream ∉ ts :=
  match hw with
  | .nil => by simp
  | .cons ho hs => by
    have h1 := writes_no_stream ho
    have h2 := writesSeq_no_stream hs
    simp [h1, h2]
end

/-- The end of the line of the word `stream`: LF, CR LF, or CR before data that does not start with LF. -/
inductive StreamEol : Bytes → Bytes → Prop
  | lf {w} : StreamEol [10] w
  | crlf {w} : StreamEol [13, 10] w
  | cr {c w} : c ≠ 10 → StreamEol [13] (c :: w)

theorem streamEol_line {eol w : Bytes} (h : StreamEol eol w) : IsLine (kwStream ++ eol) w := by
  have hk : NoEol kwStream := by unfold NoEol; decide
  cases h with
  | lf => exact .lf hk
  | crlf => exact .crlf hk
  | cr hc => exact .cr hk hc

/-- `resolve1` leaves direct objects alone. -/
def Env.Direct (env : Env σ) : Prop := ∀ o s, (∀ i g, o ≠ .ref i g) → env.resolve1 o s = (.ok o, s)

/-- A stream object in a file. From `pos` on: `i g obj`, a dictionary `d`, the line `stream`, then `body` up to a word
`endstream` - the first one starting `n` or more bytes into the body -, then `endobj`. The number `n` is the value of `Length` (0 in
fallback mode). -/
theorem stream_object (env : Env σ) (henv : env.Direct) (b : Nat) (hb : 0 < b) (data : Bytes) (pos : Nat) (i g : Int)
    (pre eol body rest mid tail : Bytes) (pts ets : List (Nat × Tok)) (ts : List Tok) (d : List (Key × Obj)) (n : Nat) (fuel : Nat) (s s' : σ)
    (hdata : data.drop pos = pre ++ (kwStream ++ (eol ++ (body ++ (kwEndstream ++ rest)))))
    (ht : Text pos pts pre (kwStream ++ (eol ++ (body ++ (kwEndstream ++ rest)))))
    (hp : pts.map Prod.snd = [.int i, .int g, .kw kwObj] ++ ts) (hw : Writes fileDialect ts (.dict d))
    (heol : StreamEol eol (body ++ (kwEndstream ++ rest)))
    (hlen : env.objlen d s = (.ok n, s')) (hn : n ≤ body.length)
    (hfirst : ∀ j, n ≤ j → j < body.length → ¬ kwEndstream <+: (body ++ (kwEndstream ++ rest)).drop j)
    (hrest : kwEndstream ++ rest = mid ++ tail)
    (hmid : Text (pos + pre.length + kwStream.length + eol.length + body.length) ets mid tail)
    (hets : ets.map Prod.snd = [.kw kwEndstream, .kw kwEndobj])
    (hline : ¬ Unfinished rest) (hfuel : ts.length + 4 ≤ fuel) :
    getobjParse env b fuel data pos i s = (.ok (.stream d (if env.fallback then body else body.take n)), s') := by
  rw [getobjParse_eq hb, hdata, run_text ht]
  obtain ⟨pts1, pts2, rfl, hp1, hp2⟩ := map_snd_append hp
  obtain ⟨p1, r1, rfl, hr1⟩ := map_snd_cons hp1
  obtain ⟨p2, r2, rfl, hr2⟩ := map_snd_cons hr1
  obtain ⟨p3, r, rfl, hr⟩ := map_snd_cons hr2
  have : r = [] := by simpa using hr
  subst this
  -- the keyword `stream`
  have hks : lexRun {} (pos + pre.length) (kwStream ++ (eol ++ (body ++ (kwEndstream ++ rest)))) =
      Stream.pre [(pos + pre.length, .kw kwStream)] (lexRun {} (pos + pre.length + kwStream.length) (eol ++ (body ++ (kwEndstream ++ rest)))) := by
    have := run_text (p := pos + pre.length) (Text.tok (a := []) (b := eol ++ (body ++ (kwEndstream ++ rest)))
      (e := kwStream) (t := .kw kwStream) (k := .delimiter)
      (Spells.keyword (c := 115) (cs := [116, 114, 101, 97, 109]) (by decide) (by decide) (by decide) (by decide)) ?_ .nil)
    · simpa using this
    · revert heol
      generalize body ++ (kwEndstream ++ rest) = W
      intro heol
      cases heol with
      | lf => exact ⟨10, _, rfl, by decide, by decide⟩
      | crlf => exact ⟨13, _, rfl, by decide, by decide⟩
      | cr hc => exact ⟨13, _, rfl, by decide, by decide⟩
  rw [hks]
  simp only [Stream.pre, List.cons_append, List.nil_append, parseA]
  have hnum : (Tok.int i).isNum i = true := by simp [Tok.isNum]
  simp only [fixA, hnum, if_true, finishA, not_true, ne_eq, if_false]
  -- the dictionary
  obtain ⟨q, hq⟩ := pushes speaks_file hw {} pts2 (Or.inr fun _ => rfl) hp2
  have hl2 : pts2.length = ts.length := by rw [← hp2]; simp
  have hns : .kw kwStream ∉ pts2.map Prod.snd := by rw [hp2]; exact writes_no_stream hw
  obtain ⟨f, rfl⟩ : ∃ f, fuel = f + 1 + 1 + 1 + 1 + pts2.length := ⟨fuel - 4 - ts.length, by omega⟩
  rw [nextA_feedAll env data pts2 _ _ _ hq rfl hns s]
  -- `stream`
  rw [nextA.eq_def]
  dsimp only
  simp only [StackSt.push, List.nil_append, if_true]
  have hdrop : ∀ k, data.drop (pos + pre.length + k) = (kwStream ++ (eol ++ (body ++ (kwEndstream ++ rest)))).drop k := by
    intro k
    rw [Nat.add_assoc, ← List.drop_drop, hdata, List.drop_append, List.drop_eq_nil_of_le (by omega), Nat.add_sub_cancel_left]
    rfl
  have hd0 := hdrop 0
  rw [Nat.add_zero, List.drop_zero] at hd0
  have hline1 := takeLine_isLine (streamEol_line heol)
  rw [List.append_assoc] at hline1
  have hdv : env.dictValue (.dict d) s = (.ok d, s) := by
    rw [Env.dictValue, henv _ s (by simp)]
  have hdP : data.drop (pos + pre.length + (kwStream ++ eol).length + n) = body.drop n ++ (kwEndstream ++ rest) := by
    rw [Nat.add_assoc, hdrop, show kwStream ++ (eol ++ (body ++ (kwEndstream ++ rest))) = (kwStream ++ eol) ++ (body ++ (kwEndstream ++ rest)) by simp,
      List.drop_append, List.drop_eq_nil_of_le (by omega), Nat.add_sub_cancel_left, List.drop_append_of_le_length hn]
    rfl
  have hdE : data.drop (pos + pre.length + (kwStream ++ eol).length + body.length) = kwEndstream ++ rest := by
    rw [Nat.add_assoc, hdrop, show kwStream ++ (eol ++ (body ++ (kwEndstream ++ rest))) = (kwStream ++ eol ++ body) ++ (kwEndstream ++ rest) by simp,
      List.drop_append, List.drop_eq_nil_of_le (by simp only [List.length_append]; omega), List.nil_append,
      show (kwStream ++ eol).length + body.length - (kwStream ++ eol ++ body).length = 0 by simp only [List.length_append]; omega]
    rfl
  have hd1 : data.drop (pos + pre.length + (kwStream ++ eol).length) = body ++ (kwEndstream ++ rest) := by
    rw [hdrop, show kwStream ++ (eol ++ (body ++ (kwEndstream ++ rest))) = (kwStream ++ eol) ++ (body ++ (kwEndstream ++ rest)) by simp]
    simp
  generalize hP : pos + pre.length + (kwStream ++ eol).length = P at hdP hdE hd1
  have hscan : scanU (data.length + 1) (data.drop (P + n)) 0 [] = (body.length - n, body.drop n) := by
    rw [hdP, ← List.append_assoc, scanU_first _ (body.drop n) rest 0 [] ?_ ?_ hline]
    · simp
    · have := congrArg List.length hd1
      simp only [List.length_drop, List.length_append] at this ⊢
      omega
    · intro j hj hpp
      refine hfirst (n + j) (by omega) (by simp at hj; omega) ?_
      rw [← List.drop_drop, List.drop_append_of_le_length hn]
      simpa using hpp
  have hread : readAt data P n = body.take n := by
    unfold readAt
    rw [if_neg (by omega), hd1]
    simp [List.take_append_of_le_length hn]
  have hsk : streamKwA env data { context := [], curtype := none, curstack := [(q, .dict d)], results := [] } (pos + pre.length) s =
      (.ok (lexRun {} (P + body.length) (kwEndstream ++ rest), StackSt.push {} (P, .stream d (if env.fallback then body else body.take n))), s') := by
    unfold streamKwA
    simp only [StackSt.pop, List.length_singleton, Nat.sub_self, List.drop_zero, hdv, hlen]
    rw [hd0, hline1]
    dsimp only
    rw [hP]
    unfold streamBodyA
    have h0 : ((P : Int) + (n : Int)) = ((P + n : Nat) : Int) := by omega
    rw [h0]
    dsimp only
    rw [if_neg (by omega), Int.toNat_natCast, hscan, hread]
    dsimp only
    rw [show P + n + (body.length - n) = P + body.length by omega, hdE]
    simp [List.take_append_drop]
  rw [hsk]
  dsimp only
  -- `endstream` and `endobj`
  rw [hrest]
  have hPP : pos + pre.length + kwStream.length + eol.length + body.length = P + body.length := by
    rw [← hP]; simp; omega
  rw [hPP] at hmid
  rw [run_text hmid]
  obtain ⟨e1, r1, rfl, hr1⟩ := map_snd_cons hets
  obtain ⟨e2, r, rfl, hr⟩ := map_snd_cons hr1
  have : r = [] := by simpa using hr
  subst this
  generalize lexRun {} (P + body.length + mid.length) tail = S
  rw [nextA.eq_def]
  dsimp only
  simp only [Stream.pre, StackSt.push, List.nil_append, List.cons_append]
  rw [if_neg (by decide)]
  have hf1 : StackSt.feed fileHooks { context := [], curtype := none, curstack := [(P, .stream d (if env.fallback then body else body.take n))], results := [] } e1 (.kw kwEndstream) =
      .ok { context := [], curtype := none, curstack := [(P, .stream d (if env.fallback then body else body.take n)), (e1, .kw kwEndstream)], results := [] } := by
    rw [feed_atom (o := .kw kwEndstream) (Or.inr fun _ => rfl) e1 ?_]
    · rfl
    · rw [feedBody_kw _ _ (by decide)]
      simp [fileHooks, fileKeyword, kwXref, kwStartxref, kwEndobj, kwNull, kwR, kwEndstream]
  rw [hf1]
  dsimp only
  rw [nextA.eq_def]
  dsimp only
  rw [if_neg (by decide), feed_endobj _ e2 _ (by simp) rfl]
  dsimp only
  rw [nextA.eq_def]
  dsimp only
  rfl

/-- C27, intact file: whatever the payload contains (also the word `endstream`, CR, LF, any length), if `Length` is right
the stream holds exactly the payload. Between the payload and `endstream` there may be any `gap` in which the word
`endstream` does not begin. `Length` may be an indirect object. -/
theorem stream_payload (env : Env σ) (henv : env.Direct) (hf : env.fallback = false) (b : Nat) (hb : 0 < b) (data : Bytes) (pos : Nat) (i g : Int)
    (pre eol payload gap rest mid tail : Bytes) (pts ets : List (Nat × Tok)) (ts : List Tok) (d : List (Key × Obj)) (len : Obj) (fuel : Nat) (s s' : σ)
    (hdata : data.drop pos = pre ++ (kwStream ++ (eol ++ (payload ++ gap ++ (kwEndstream ++ rest)))))
    (ht : Text pos pts pre (kwStream ++ (eol ++ (payload ++ gap ++ (kwEndstream ++ rest)))))
    (hp : pts.map Prod.snd = [.int i, .int g, .kw kwObj] ++ ts) (hw : Writes fileDialect ts (.dict d))
    (heol : StreamEol eol (payload ++ gap ++ (kwEndstream ++ rest)))
    (hlen : dictGet d nameLength = some len) (hres : env.resolve1 len s = (.ok (.int payload.length), s'))
    (hgap : ∀ j < gap.length, ¬ kwEndstream <+: (gap ++ (kwEndstream ++ rest)).drop j)
    (hrest : kwEndstream ++ rest = mid ++ tail)
    (hmid : Text (pos + pre.length + kwStream.length + eol.length + (payload ++ gap).length) ets mid tail)
    (hets : ets.map Prod.snd = [.kw kwEndstream, .kw kwEndobj])
    (hline : ¬ Unfinished rest) (hfuel : ts.length + 4 ≤ fuel) :
    getobjParse env b fuel data pos i s = (.ok (.stream d payload), s') := by
  have hol : env.objlen d s = (.ok (payload.length : Nat), s') := by
    simp [Env.objlen, hf, hlen, Env.intValue, hres]
  rw [stream_object env henv b hb data pos i g pre eol (payload ++ gap) rest mid tail pts ets ts d payload.length fuel s s' hdata ht hp hw heol
    hol (by simp) ?_ hrest hmid hets hline hfuel, hf]
  · simp
  · intro j hj hj2 hpp
    refine hgap (j - payload.length) (by simp at hj2; omega) ?_
    rw [List.append_assoc, List.drop_append, List.drop_eq_nil_of_le hj] at hpp
    simpa using hpp

/-- C27, damaged file (no usable cross-reference): `Length` is ignored, the stream holds the bytes up to the first
`endstream`. -/
theorem stream_fallback (env : Env σ) (henv : env.Direct) (hf : env.fallback = true) (b : Nat) (hb : 0 < b) (data : Bytes) (pos : Nat) (i g : Int)
    (pre eol body rest mid tail : Bytes) (pts ets : List (Nat × Tok)) (ts : List Tok) (d : List (Key × Obj)) (fuel : Nat) (s : σ)
    (hdata : data.drop pos = pre ++ (kwStream ++ (eol ++ (body ++ (kwEndstream ++ rest)))))
    (ht : Text pos pts pre (kwStream ++ (eol ++ (body ++ (kwEndstream ++ rest)))))
    (hp : pts.map Prod.snd = [.int i, .int g, .kw kwObj] ++ ts) (hw : Writes fileDialect ts (.dict d))
    (heol : StreamEol eol (body ++ (kwEndstream ++ rest)))
    (hfirst : ∀ j < body.length, ¬ kwEndstream <+: (body ++ (kwEndstream ++ rest)).drop j)
    (hrest : kwEndstream ++ rest = mid ++ tail)
    (hmid : Text (pos + pre.length + kwStream.length + eol.length + body.length) ets mid tail)
    (hets : ets.map Prod.snd = [.kw kwEndstream, .kw kwEndobj])
    (hline : ¬ Unfinished rest) (hfuel : ts.length + 4 ≤ fuel) :
    getobjParse env b fuel data pos i s = (.ok (.stream d body), s) := by
  have hol : env.objlen d s = (.ok (0 : Nat), s) := by simp [Env.objlen, hf]
  rw [stream_object env henv b hb data pos i g pre eol body rest mid tail pts ets ts d 0 fuel s s hdata ht hp hw heol
    hol (by simp) (fun j _ => hfirst j) hrest hmid hets hline hfuel, hf]
  rfl

/-- `endstream LF endobj LF` -/
theorem text_end (p : Nat) (after : Bytes) : ∃ ets, Text p ets (kwEndstream ++ [10] ++ kwEndobj ++ [10]) after ∧ ets.map Prod.snd = [.kw kwEndstream, .kw kwEndobj] := by
  refine ⟨[(p, .kw kwEndstream), (p + kwEndstream.length + 1, .kw kwEndobj)], ?_, rfl⟩
  have h1 : Spells kwEndstream (.kw kwEndstream) .delimiter :=
    Spells.keyword (c := 101) (cs := [110, 100, 115, 116, 114, 101, 97, 109]) (by decide) (by decide) (by decide) (by decide)
  have h2 : Spells kwEndobj (.kw kwEndobj) .delimiter :=
    Spells.keyword (c := 101) (cs := [110, 100, 111, 98, 106]) (by decide) (by decide) (by decide) (by decide)
  have := Text.tok (p := p) h1 (a := [10] ++ (kwEndobj ++ [10])) (b := after) ⟨10, _, rfl, by decide, by decide⟩
    (.white (by decide) (.tok h2 (a := [10]) ⟨10, _, rfl, by decide, by decide⟩ (.white (by decide) .nil)))
  simpa using this

/-- The bytes `i g obj << ... >> stream LF payload LF endstream LF endobj LF`. -/
def printStream (i g : Int) (d : List (Key × Obj)) (payload : Bytes) : Bytes :=
  printToks ([.int i, .int g, .kw kwObj] ++ objToks (.dict d)) ++
    (kwStream ++ ([10] ++ (payload ++ [10] ++ (kwEndstream ++ ([10] ++ kwEndobj ++ [10])))))

theorem print_stream_text (i g : Int) (d : List (Key × Obj)) (hd : WF (.dict d)) (p : Nat) (b : Bytes) :
    ∃ pts, pts.map Prod.snd = [.int i, .int g, .kw kwObj] ++ objToks (.dict d) ∧
      Text p pts (printToks ([.int i, .int g, .kw kwObj] ++ objToks (.dict d))) b := by
  refine text_print _ ?_ p b
  intro t ht
  simp only [List.mem_append, List.mem_cons, List.not_mem_nil, or_false] at ht
  rcases ht with (rfl | rfl | rfl) | ht
  · trivial
  · trivial
  · exact Or.inr ⟨111, [98, 106], rfl, by decide, by decide, by decide, by decide⟩
  · exact printable_obj _ hd t ht

/-- C27. Writing a stream object anywhere in a file and reading it back: any dictionary, any payload. -/
theorem stream_roundtrip (env : Env σ) (henv : env.Direct) (hf : env.fallback = false) (b : Nat) (hb : 0 < b) (before after payload : Bytes)
    (i g : Int) (d : List (Key × Obj)) (hd : WF (.dict d)) (hlen : dictGet d nameLength = some (.int payload.length)) (fuel : Nat) (s : σ)
    (hfuel : (objToks (.dict d)).length + 4 ≤ fuel) :
    getobjParse env b fuel (before ++ (printStream i g d payload ++ after)) before.length i s = (.ok (.stream d payload), s) := by
  obtain ⟨pts, h1, h2⟩ := print_stream_text i g d hd before.length
    (kwStream ++ ([10] ++ (payload ++ [10] ++ (kwEndstream ++ ([10] ++ kwEndobj ++ [10] ++ after)))))
  obtain ⟨ets, h3, h4⟩ := text_end (before.length + (printToks ([.int i, .int g, .kw kwObj] ++ objToks (.dict d))).length +
    kwStream.length + [(10 : UInt8)].length + (payload ++ [10]).length) after
  exact stream_payload env henv hf b hb _ before.length i g _ [10] payload [10] ([10] ++ kwEndobj ++ [10] ++ after)
    (kwEndstream ++ [10] ++ kwEndobj ++ [10]) after pts ets _ d (.int payload.length) fuel s s
    (by simp [printStream]) h2 h1 (writes_obj rfl _ hd) .lf hlen (henv _ s (by simp))
    (by intro j hj; simp at hj; subst hj; simp [kwEndstream]) (by simp) h3 h4
    (by rintro (h | ⟨body, h, e⟩)
        · exact absurd (h 10 (by simp)) (by simp)
        · cases body with
          | nil => simp at e
          | cons c cs => simp at e; exact (h 10 (by simp [← e.1])).1 rfl) hfuel

end Pdf
