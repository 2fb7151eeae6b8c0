import Verif.Model.Xref
import Verif.Spec.Xref
import Verif.Proofs.TokEnd
import Verif.Proofs.TokenSpec
import Verif.Props.Lines
/-! Lemmas on the primitive functions used for cross-reference tables. -/

namespace Pdf
open Spec

theorem dropWhile_space {a t : Bytes} (ha : ∀ c ∈ a, White c) (ht : ∀ c ∈ t.head?, ¬ White c) : (a ++ t).dropWhile isSpace = t := by
  induction a with
  | nil =>
    cases t with
    | nil => rfl
    | cons c cs =>
      have : isSpace c = false := by
        rw [← Bool.not_eq_true, white_iff]; exact ht c rfl
      simp [this]
  | cons c cs ih =>
    have : isSpace c = true := (white_iff c).2 (ha c (by simp))
    rw [List.cons_append, List.dropWhile_cons_of_pos this]
    exact ih fun x hx => ha x (by simp [hx])

theorem strip_of_trims {w t : Bytes} (h : Trims w t) : strip w = t := by
  obtain ⟨a, b, rfl, ha, hb, h1, h2⟩ := h
  unfold strip
  by_cases ht : t = []
  · subst ht
    rw [List.append_nil, show a ++ b = (a ++ b) ++ [] by simp, dropWhile_space (by
      intro c hc; rcases List.mem_append.1 hc with h | h
      · exact ha c h
      · exact hb c h) (by simp)]
    rfl
  · rw [List.append_assoc, dropWhile_space ha (by
      intro c hc
      rw [List.head?_append] at hc
      cases t with
      | nil => exact absurd rfl ht
      | cons d ds => exact h1 c (by simpa using hc)), List.reverse_append,
      dropWhile_space (by simpa using hb) (by
      intro c hc; rw [List.head?_reverse] at hc; exact h2 c hc), List.reverse_reverse]

theorem trims_strip (w : Bytes) : Trims w (strip w) := by
  have h1 : ∀ v : Bytes, v = v.takeWhile isSpace ++ v.dropWhile isSpace := fun v => by simp
  have h2 : ∀ (v : Bytes), ∀ c ∈ (v.dropWhile isSpace).head?, ¬ White c := by
    intro v c hc
    have := List.head?_dropWhile_not isSpace v
    rw [hc] at this
    rw [← white_iff]; simpa using this
  have h3 : ∀ (v : Bytes), ∀ c ∈ v.takeWhile isSpace, White c := fun v c hc => (white_iff c).1 (takeWhile_all isSpace v c hc)
  refine ⟨w.takeWhile isSpace, ((w.dropWhile isSpace).reverse.takeWhile isSpace).reverse, ?_, h3 _, ?_, ?_, ?_⟩
  · conv => lhs; rw [h1 w]
    rw [List.append_assoc]
    congr 1
    unfold strip
    rw [← List.reverse_append, ← h1, List.reverse_reverse]
  · intro c hc; exact h3 _ c (by simpa using hc)
  · intro c hc
    unfold strip at hc
    have hp : (((w.dropWhile isSpace).reverse.dropWhile isSpace).reverse) <+: w.dropWhile isSpace := by
      have := List.dropWhile_suffix (l := (w.dropWhile isSpace).reverse) isSpace
      have := List.reverse_prefix.2 this
      simpa using this
    obtain ⟨r, hr⟩ := hp
    refine h2 w c ?_
    rw [← hr, List.head?_append, hc]; rfl
  · intro c hc
    unfold strip at hc
    rw [List.getLast?_reverse] at hc
    exact h2 _ c hc

theorem trims_unique {w t t'} (h : Trims w t) (h' : Trims w t') : t = t' := by
  rw [← strip_of_trims h, ← strip_of_trims h']

theorem strip_blank {w : Bytes} : strip w = [] ↔ Blank w := by
  constructor
  · intro h
    obtain ⟨a, b, e, ha, hb, _⟩ := trims_strip w
    rw [h] at e
    intro c hc
    rw [e] at hc
    simp only [List.append_nil, List.mem_append] at hc
    rcases hc with hc | hc
    · exact ha c hc
    · exact hb c hc
  · intro h
    exact strip_of_trims ⟨w, [], by simp, h, by simp, by simp, by simp⟩

/-- A leading white byte does not matter. -/
theorem strip_cons {c : UInt8} (hc : White c) (w : Bytes) : strip (c :: w) = strip w := by
  obtain ⟨a, b, e, ha, hb, h1, h2⟩ := trims_strip w
  refine strip_of_trims ⟨c :: a, b, by rw [e, strip_of_trims ⟨a, b, rfl, ha, hb, h1, h2⟩]; simp, ?_, hb, h1, h2⟩
  intro x hx
  rcases List.mem_cons.1 hx with rfl | hx
  · exact hc
  · exact ha x hx

theorem digit_not_white' : ∀ c : UInt8, Digit c → ¬ White c := by
  refine forall_byte ?_; decide +kernel
theorem digit_not_white {c : UInt8} : Digit c → ¬ White c := digit_not_white' c
theorem digit_not_sign : ∀ c : UInt8, Digit c → c ≠ 45 ∧ c ≠ 43 := by
  refine forall_byte ?_; decide +kernel

theorem num_trims {t : Bytes} (h : Num t) : Trims t t := by
  refine ⟨[], [], by simp, by simp, by simp, ?_, ?_⟩
  · intro c hc; exact digit_not_white (h.2 c (List.mem_of_mem_head? hc))
  · intro c hc; exact digit_not_white (h.2 c (List.mem_of_mem_getLast? hc))

theorem intBody_digits (ds : Bytes) (hd : ∀ c ∈ ds, Digit c) (prev : Bool) (n : Nat) (h : prev = true ∨ ds ≠ []) :
    intBody prev n ds = some (n * 10 ^ ds.length + decimal ds) := by
  induction ds generalizing prev n with
  | nil => simp at h; simp [intBody, h, decimal]
  | cons c cs ih =>
    rw [intBody, if_pos ((digit_iff c).2 (hd c (by simp))), ih (fun x hx => hd x (by simp [hx])) _ _ (Or.inl rfl)]
    simp only [decimal, List.length_cons, Option.some.injEq]
    rw [Nat.pow_succ, Nat.add_mul, Nat.mul_assoc, Nat.mul_comm 10 (10 ^ _), Nat.add_assoc]

theorem pyInt_num {ds : Bytes} (h : Num ds) : pyInt ds = .ok (decimal ds) := by
  unfold pyInt
  rw [strip_of_trims (num_trims h)]
  have hs : splitSign ds = (false, ds) := by
    cases ds with
    | nil => rfl
    | cons c cs =>
      have := digit_not_sign c (h.2 c (by simp))
      simp [splitSign, this.1, this.2]
  rw [hs]
  dsimp only
  rw [intBody_digits ds h.2 false 0 (Or.inr h.1)]
  simp [applySign]

theorem splitSp_free {a : Bytes} (ha : ∀ c ∈ a, c ≠ 32) : splitSp a = [a] := by
  induction a with
  | nil => rfl
  | cons c cs ih =>
    rw [splitSp, if_neg (ha c (by simp)), ih fun x hx => ha x (by simp [hx])]

theorem splitSp_cons {a b : Bytes} (ha : ∀ c ∈ a, c ≠ 32) : splitSp (a ++ 32 :: b) = a :: splitSp b := by
  induction a with
  | nil => simp [splitSp]
  | cons c cs ih =>
    rw [List.cons_append, splitSp, if_neg (ha c (by simp)), ih fun x hx => ha x (by simp [hx])]

theorem num_nosp {ds : Bytes} (h : Num ds) : ∀ c ∈ ds, c ≠ 32 := by
  intro c hc e; subst e; exact digit_not_white (h.2 _ hc) (by decide)

/-- A parser that stands at position `p`, between tokens. -/
structure Ready (data : Bytes) (p : Nat) (ps : PSt) : Prop where
  good : ps.Good
  cpos : ps.charpos ≤ ps.buf.length
  toks : ps.toks = []
  main : ps.lex.fn = .main
  data : ps.data = data
  pos : ps.rpos = p

theorem ready_seek (data : Bytes) (p : Nat) : Ready data p (PSt.seek data p) :=
  ⟨good_seek data p, by simp [PSt.seek], rfl, rfl, rfl, by simp [PSt.rpos, PSt.seek]⟩

theorem Ready.unread {data p ps} (h : Ready data p ps) : ps.unread = data.drop p := by rw [h.good.unread, h.data, h.pos]

theorem Ready.stream {data p ps} (h : Ready data p ps) : ps.stream = lexRun {} p (data.drop p) := by
  unfold PSt.stream
  rw [h.toks, Stream.pre_nil, lexRun_main _ h.main, h.pos, h.unread]

theorem Ready.line {data p ps} (h : Ready data p ps) {b : Nat} (hb : 0 < b) {l w : Bytes} (hd : data.drop p = l ++ w) (hl : IsLine l w) :
    ∃ ps', ps.nextline b = (.ok (p, l), ps') ∧ Ready data (p + l.length) ps' := by
  have h1 := nextline_step hb ps h.good.inv h.cpos
  rw [h.unread, hd, takeLine_isLine hl] at h1
  obtain ⟨ps', g1, g2, g3, g4, g5⟩ := h1
  have hr := nextline_rest b ps
  rw [g1] at hr
  refine ⟨ps', by rw [g1, h.pos], ⟨⟨g2, ?_⟩, g5, by rw [hr.2.2, h.toks], by rw [hr.2.1, h.main], by rw [hr.1, h.data], by rw [g4, h.pos]⟩⟩
  rw [g3, hr.1, h.data, g4, h.pos, ← List.drop_drop, hd, List.drop_left]

theorem Ready.eof {data p ps} (h : Ready data p ps) {b : Nat} (hb : 0 < b) (hu : Unfinished (data.drop p)) :
    ∃ ps', ps.nextline b = (.error .psEOF, ps') := by
  have h1 := nextline_step hb ps h.good.inv h.cpos
  rw [h.unread, takeLine_unfinished hu] at h1
  obtain ⟨ps', g1, _⟩ := h1
  exact ⟨ps', g1⟩

/-- A keyword at the position of the parser. -/
theorem Ready.keyword {data p ps} (h : Ready data p ps) {b : Nat} (hb : 0 < b) {c : UInt8} {cs : Bytes} {q : Nat} {ts e}
    (hs : lexRun {} p (data.drop p) = ((q, .kw (c :: cs)) :: ts, e)) (hc : isAlpha c = true) :
    ∃ ps', ps.nexttoken b = (.ok (q, .kw (c :: cs)), ps') ∧ Ready data (q + (c :: cs).length) ps' := by
  have h1 := nexttoken_spec hb ps h.good.inv
  rw [h.stream, hs] at h1
  obtain ⟨h1, h2, h3⟩ := h1
  have hd : ps.nexttoken b = (.ok (q, .kw (c :: cs)), (ps.nexttoken b).2) := by rw [← h2]
  have h4 := nexttoken_end hb ps h.good h.toks h.main hd
  exact ⟨_, hd, ⟨h4.good, h4.cpos, h4.toks, h4.main, by rw [h4.data, h.data], h4.endAt _ _ rfl hc⟩⟩

end Pdf
