import Verif.Model.Lines
import Verif.Spec.Lines
import Verif.Proofs.TokenSpec
/-! C18, C19: the line readers. -/

namespace Pdf
open Spec (NoEol IsLine Unfinished Lines)

/-- What `nextline` takes from the unread bytes. -/
def takeLine : Bool → Bytes → Option (Bytes × Bytes)
  | _, [] => none
  | true, c :: r => if c = 10 then some ([10], r) else some ([], c :: r)
  | false, c :: r =>
    if c = 10 then some ([10], r)
    else if c = 13 then (takeLine true r).map (fun x => (13 :: x.1, x.2))
    else (takeLine false r).map (fun x => (c :: x.1, x.2))

theorem takeLine_skip (u w : Bytes) (hu : ∀ c ∈ u, isEol c = false) :
    takeLine false (u ++ w) = (takeLine false w).map (fun x => (u ++ x.1, x.2)) := by
  induction u with
  | nil => simp
  | cons c cs ih =>
    have hc := hu c (by simp)
    have h1 : c ≠ 10 ∧ c ≠ 13 := by
      rw [← Bool.not_eq_true, eol_iff] at hc; simpa using hc
    rw [List.cons_append, takeLine, if_neg h1.1, if_neg h1.2, ih (fun x hx => hu x (by simp [hx]))]
    simp [Option.map_map, Function.comp_def]

/-- The reader on a state. -/
def LineOk (line : Bytes) (rpos : Nat) (w : Bytes) (eol : Bool) (r : Except PyErr Bytes × PSt) : Prop :=
  r.2.Inv ∧
  match takeLine eol w with
  | some (l, rest) => r.1 = .ok (line ++ l) ∧ r.2.unread = rest ∧ r.2.rpos = rpos + l.length ∧ r.2.charpos ≤ r.2.buf.length
  | none => r.1 = .error .psEOF ∧ r.2.unread = []

theorem nextlineLoop_spec {bufsiz : Nat} (hb : 0 < bufsiz) (fuel : Nat) (ps : PSt) (hi : ps.Inv) (line : Bytes) (eol : Bool)
    (hf : ps.unread.length + 2 ≤ fuel ∨ (eol = true ∧ 0 < fuel)) :
    LineOk line ps.rpos ps.unread eol (ps.nextlineLoop bufsiz fuel line eol) := by
  induction fuel generalizing ps line eol with
  | zero => omega
  | succ fuel ih =>
    unfold PSt.nextlineLoop
    obtain ⟨f1, f2, f3, f4, f5, f6, f7⟩ := fillbuf_spec hb ps hi
    cases hfb : ps.fillbuf bufsiz with
    | mk ps1 b =>
    rw [hfb] at f1 f2 f3 f6 f7
    dsimp only at f1 f2 f3 f6 f7
    cases b with
    | true =>
      have hu := f6 rfl
      refine ⟨f1, ?_⟩
      rw [hu]
      cases eol <;> exact ⟨rfl, by rw [f3, hu]⟩
    | false =>
      have hlt := f7 rfl
      dsimp only
      have hwne : ps1.buf.drop ps1.charpos ≠ [] := by
        intro h; have := congrArg List.length h; rw [List.length_drop] at this; simp at this; omega
      have hun : ps.unread = ps1.buf.drop ps1.charpos ++ ps1.data.drop ps1.fpos := f3.symm
      have hrp : ps.rpos = ps1.fpos - (ps1.buf.length - ps1.charpos) := f2.symm
      have hi1 : ps1.bufpos + ps1.buf.length = ps1.fpos := f1
      have hlen : ps1.buf.length = ps1.charpos + (ps1.buf.drop ps1.charpos).length := by rw [List.length_drop]; omega
      have hdd : ∀ n, (ps1.buf.drop (ps1.charpos + n)) = (ps1.buf.drop ps1.charpos).drop n := fun n => by rw [List.drop_drop]
      generalize hw : ps1.buf.drop ps1.charpos = w at *
      cases eol with
      | true =>
        rw [if_pos rfl]
        obtain ⟨d, ds, rfl⟩ := List.exists_cons_of_ne_nil hwne
        rw [hun, List.cons_append]
        by_cases hd : d = 10
        · subst hd
          rw [if_pos (by simp)]
          refine ⟨f1, ?_⟩
          rw [takeLine, if_pos rfl]
          refine ⟨rfl, ?_, ?_, ?_⟩
          · simp only [PSt.unread, hdd]; rfl
          · rw [hrp]; simp only [PSt.rpos, List.length_cons, List.length_nil] at *; omega
          · show ps1.charpos + 1 ≤ ps1.buf.length; omega
        · rw [if_neg (by simpa using hd)]
          refine ⟨f1, ?_⟩
          simp only [takeLine, if_neg hd]
          refine ⟨by simp, ?_, ?_, by omega⟩
          · simp only [PSt.unread, hw]; rfl
          · rw [hrp]; simp only [PSt.rpos, List.length_nil]; omega
      | false =>
        rw [if_neg (by simp)]
        rcases search_split (fun c => !isEol c) w with ⟨h1, h2⟩ | ⟨c, r, h1, h2, h3⟩
        · -- no line end in the buffer
          rw [h1]
          dsimp only
          have hall : ∀ c ∈ w, isEol c = false := fun c hc => by
            simpa using takeWhile_all (fun c => !isEol c) w c (by rw [h2]; exact hc)
          have hu2 : PSt.unread { ps1 with charpos := ps1.buf.length } = ps1.data.drop ps1.fpos := by simp [PSt.unread]
          have hr2 : PSt.rpos { ps1 with charpos := ps1.buf.length } = ps1.fpos := by simp [PSt.rpos]
          have hwpos : 0 < w.length := List.length_pos_iff.mpr hwne
          have := ih { ps1 with charpos := ps1.buf.length } f1 (line ++ w) false (Or.inl (by
            rw [hu2]
            have := congrArg List.length hun
            rw [List.length_append] at this
            rcases hf with hf | hf
            · omega
            · cases hf.1))
          rw [hu2, hr2] at this
          rw [hun]
          refine ⟨this.1, ?_⟩
          rw [takeLine_skip w _ hall]
          have h' := this.2
          cases ht : takeLine false (ps1.data.drop ps1.fpos) with
          | none => rw [ht] at h'; exact h'
          | some q =>
            obtain ⟨l, rest⟩ := q
            rw [ht] at h'
            obtain ⟨a1, a2, a3, a4⟩ := h'
            refine ⟨by rw [a1]; simp, a2, ?_, a4⟩
            rw [a3, hrp]; simp; omega
        · rw [h1]
          dsimp only
          have hall : ∀ x ∈ w.takeWhile (fun c => !isEol c), isEol x = false := fun x hx => by
            simpa using takeWhile_all (fun c => !isEol c) w x hx
          have hc : c = 10 ∨ c = 13 := by simpa [eol_iff] using h2
          have hsp : ps.unread = w.takeWhile (fun c => !isEol c) ++ c :: (r ++ ps1.data.drop ps1.fpos) := by
            rw [hun]; conv => lhs; rw [h3]
            simp
          have hd1 : w.drop ((w.takeWhile (fun c => !isEol c)).length + 1) = r := by
            rw [← List.drop_drop, drop_takeWhile_length, h1]; rfl
          have hsl := split_len h1
          generalize w.takeWhile (fun c => !isEol c) = pre at *
          have hun2 : PSt.unread { ps1 with charpos := ps1.charpos + pre.length + 1 } = r ++ ps1.data.drop ps1.fpos := by
            simp only [PSt.unread]
            rw [Nat.add_assoc, hdd, hd1]
          have hrp2 : PSt.rpos { ps1 with charpos := ps1.charpos + pre.length + 1 } = ps.rpos + pre.length + 1 := by
            rw [hrp]; simp only [PSt.rpos]; omega
          split
          · rename_i h13; subst h13
            have := ih { ps1 with charpos := ps1.charpos + pre.length + 1 } f1 (line ++ pre ++ [13]) true (Or.inr ⟨rfl, by
              rcases hf with hf | hf
              · omega
              · cases hf.1⟩)
            rw [hun2, hrp2] at this
            refine ⟨this.1, ?_⟩
            rw [hsp, takeLine_skip pre _ hall]
            have ht13 : takeLine false (13 :: (r ++ ps1.data.drop ps1.fpos)) =
                (takeLine true (r ++ ps1.data.drop ps1.fpos)).map (fun x => (13 :: x.1, x.2)) := by simp [takeLine]
            rw [ht13]
            have h' := this.2
            cases ht : takeLine true (r ++ ps1.data.drop ps1.fpos) with
            | none => rw [ht] at h'; exact h'
            | some q =>
              obtain ⟨l, rest⟩ := q
              rw [ht] at h'
              obtain ⟨a1, a2, a3, a4⟩ := h'
              refine ⟨by rw [a1]; simp, a2, ?_, a4⟩
              rw [a3]; simp; omega
          · rename_i h13
            have h10 : c = 10 := by rcases hc with h | h; exact h; exact absurd h h13
            subst h10
            refine ⟨f1, ?_⟩
            rw [hsp, takeLine_skip pre _ hall]
            simp only [takeLine, if_true, Option.map_some]
            refine ⟨by simp, hun2, by rw [hrp2]; simp; omega, ?_⟩
            show ps1.charpos + pre.length + 1 ≤ ps1.buf.length; omega

theorem noEol_cons {c : UInt8} {w : Bytes} : NoEol (c :: w) ↔ (c ≠ 10 ∧ c ≠ 13) ∧ NoEol w := by
  simp [NoEol]

/-- `takeLine` finds lines. -/
theorem takeLine_spec (w : Bytes) :
    match takeLine false w with
    | some (l, rest) => w = l ++ rest ∧ IsLine l rest
    | none => Unfinished w := by
  induction w with
  | nil => exact Or.inl (by simp [NoEol])
  | cons c cs ih =>
    rw [takeLine]
    by_cases h10 : c = 10
    · subst h10; rw [if_pos rfl]
      exact ⟨rfl, .lf (body := []) (by simp [NoEol])⟩
    · rw [if_neg h10]
      by_cases h13 : c = 13
      · subst h13; rw [if_pos rfl]
        cases cs with
        | nil => exact Or.inr ⟨[], by simp [NoEol], rfl⟩
        | cons d ds =>
          rw [takeLine]
          by_cases hd : d = 10
          · subst hd; rw [if_pos rfl]; exact ⟨rfl, .crlf (body := []) (by simp [NoEol])⟩
          · rw [if_neg hd]; exact ⟨rfl, .cr (body := []) (by simp [NoEol]) hd⟩
      · rw [if_neg h13]
        cases ht : takeLine false cs with
        | none =>
          rw [ht] at ih
          rcases ih with ih | ⟨body, h1, h2⟩
          · exact Or.inl (noEol_cons.mpr ⟨⟨h10, h13⟩, ih⟩)
          · exact Or.inr ⟨c :: body, noEol_cons.mpr ⟨⟨h10, h13⟩, h1⟩, by rw [h2]; rfl⟩
        | some q =>
          obtain ⟨l, rest⟩ := q
          rw [ht] at ih
          obtain ⟨e1, e2⟩ := ih
          refine ⟨by rw [e1]; rfl, ?_⟩
          dsimp only
          cases e2 with
          | lf hb => exact .lf (body := c :: _) (noEol_cons.mpr ⟨⟨h10, h13⟩, hb⟩)
          | crlf hb => exact .crlf (body := c :: _) (noEol_cons.mpr ⟨⟨h10, h13⟩, hb⟩)
          | cr hb hn => exact .cr (body := c :: _) (noEol_cons.mpr ⟨⟨h10, h13⟩, hb⟩) hn

theorem takeLine_len {w l rest : Bytes} (h : takeLine false w = some (l, rest)) : rest.length < w.length := by
  have := takeLine_spec w
  rw [h] at this
  obtain ⟨e, h2⟩ := this
  have : l ≠ [] := by cases h2 <;> simp
  have := List.length_pos_iff.mpr this
  rw [e]; simp; omega

theorem lines_exist (w : Bytes) : ∀ p, ∃ ls rest, Lines p w ls rest := by
  generalize hn : w.length = n
  induction n using Nat.strongRecOn generalizing w with
  | ind n ih =>
    intro p
    have h := takeLine_spec w
    cases ht : takeLine false w with
    | none => rw [ht] at h; exact ⟨[], w, .stop h⟩
    | some q =>
      obtain ⟨l, rest⟩ := q
      rw [ht] at h
      obtain ⟨e, h2⟩ := h
      have hl := takeLine_len ht
      obtain ⟨ls, r, hls⟩ := ih rest.length (by omega) rest rfl (p + l.length)
      refine ⟨(p, l) :: ls, r, ?_⟩
      rw [e]; exact .line h2 hls

/-- The lines of a text are unique, and `takeLine` computes the first one. -/
theorem takeLine_isLine {l rest : Bytes} (h : IsLine l rest) : takeLine false (l ++ rest) = some (l, rest) := by
  have hne : ∀ {body : Bytes}, NoEol body → ∀ c ∈ body, isEol c = false := fun hb c hc => by
    rw [← Bool.not_eq_true, eol_iff]; have := hb c hc; simp [this]
  cases h with
  | lf hb => rw [List.append_assoc, takeLine_skip _ _ (hne hb)]; simp [takeLine]
  | crlf hb => rw [List.append_assoc, takeLine_skip _ _ (hne hb)]; simp [takeLine]
  | cr hb hc => rw [List.append_assoc, takeLine_skip _ _ (hne hb)]; simp [takeLine, hc]

theorem takeLine_unfinished {w : Bytes} (h : Unfinished w) : takeLine false w = none := by
  have hne : ∀ {body : Bytes}, NoEol body → ∀ c ∈ body, isEol c = false := fun hb c hc => by
    rw [← Bool.not_eq_true, eol_iff]; have := hb c hc; simp [this]
  rcases h with h | ⟨body, hb, rfl⟩
  · have := takeLine_skip w [] (hne h)
    rw [List.append_nil] at this
    rw [this]; simp [takeLine]
  · rw [takeLine_skip _ _ (hne hb)]; simp [takeLine]

theorem nextline_step {bufsiz : Nat} (hb : 0 < bufsiz) (ps : PSt) (hi : ps.Inv) (hc : ps.charpos ≤ ps.buf.length) :
    match takeLine false ps.unread with
    | some (l, rest) => ∃ ps', ps.nextline bufsiz = (.ok (ps.rpos, l), ps') ∧ ps'.Inv ∧ ps'.unread = rest ∧
        ps'.rpos = ps.rpos + l.length ∧ ps'.charpos ≤ ps'.buf.length
    | none => ∃ ps', ps.nextline bufsiz = (.error .psEOF, ps') ∧ ps'.Inv ∧ ps'.unread = [] := by
  have hpos : ps.bufpos + ps.charpos = ps.rpos := by simp only [PSt.rpos, PSt.Inv] at *; omega
  have h := nextlineLoop_spec hb (ps.unread.length + 2) ps hi [] false (Or.inl (Nat.le_refl _))
  unfold PSt.nextline
  cases hr : ps.nextlineLoop bufsiz (ps.unread.length + 2) [] false with
  | mk r ps' =>
  rw [hr] at h
  obtain ⟨h1, h2⟩ := h
  cases ht : takeLine false ps.unread with
  | none =>
    rw [ht] at h2
    obtain ⟨a, b⟩ := h2
    dsimp only at a b; subst a
    exact ⟨ps', rfl, h1, b⟩
  | some q =>
    obtain ⟨l, rest⟩ := q
    rw [ht] at h2
    obtain ⟨a, b, c, d⟩ := h2
    dsimp only at a b; subst a
    exact ⟨ps', by rw [hpos]; rfl, h1, b, c, d⟩

theorem nextline_eof {bufsiz : Nat} (hb : 0 < bufsiz) (ps : PSt) (hi : ps.Inv) (hu : ps.unread = []) (n : Nat) :
    ps.lineOutcomes bufsiz n = List.replicate n (Except.error PyErr.psEOF) := by
  induction n generalizing ps with
  | zero => rfl
  | succ n ih =>
    have h := nextlineLoop_spec hb (ps.unread.length + 2) ps hi [] false (Or.inl (Nat.le_refl _))
    rw [PSt.lineOutcomes]
    unfold PSt.nextline
    cases hr : ps.nextlineLoop bufsiz (ps.unread.length + 2) [] false with
    | mk r ps' =>
    rw [hr, hu] at h
    obtain ⟨h1, h2, h3⟩ := h
    dsimp only at h1 h2 h3; subst h2
    dsimp only
    rw [ih ps' h1 h3]; rfl

theorem lineOutcomes_spec {bufsiz : Nat} (hb : 0 < bufsiz) {p w ls rest} (h : Lines p w ls rest) (ps : PSt) (hi : ps.Inv)
    (hc : ps.charpos ≤ ps.buf.length) (hu : ps.unread = w) (hp : ps.rpos = p) (n : Nat) :
    ps.lineOutcomes bufsiz n = (ls.map Except.ok ++ List.replicate n (Except.error PyErr.psEOF)).take n := by
  induction h generalizing ps n with
  | stop hw =>
    cases n with
    | zero => rfl
    | succ n =>
      have h := nextline_step hb ps hi hc
      rw [hu, takeLine_unfinished hw] at h
      obtain ⟨ps', h1, h2, h3⟩ := h
      rw [PSt.lineOutcomes, h1]
      dsimp only
      rw [nextline_eof hb ps' h2 h3]
      simp [List.replicate_succ]
  | line hl _ ih =>
    rename_i p l w ls rest _
    cases n with
    | zero => rfl
    | succ n =>
      have h := nextline_step hb ps hi hc
      rw [hu, takeLine_isLine hl] at h
      obtain ⟨ps', h1, h2, h3, h4, h5⟩ := h
      rw [PSt.lineOutcomes, h1]
      dsimp only
      rw [ih ps' h2 h5 h3 (by rw [h4, hp]) n, hp]
      simp only [List.map_cons, List.cons_append, List.take_succ_cons, List.cons.injEq, true_and]
      rw [List.replicate_succ', ← List.append_assoc,
        List.take_append_of_le_length (l₁ := ls.map Except.ok ++ List.replicate n (Except.error PyErr.psEOF))]
      simp

/-- C18. From any position, the calls of `nextline` return the lines of the rest of the file in order with their
offsets and then raise end-of-file for ever; the lines and their offsets do not depend on the buffer size. -/
theorem nextline_lines (data : Bytes) (pos : Nat) :
    ∃ (ls : List (Nat × Bytes)) (rest : Bytes), Lines pos (data.drop pos) ls rest ∧
      ∀ b n, 0 < b → (PSt.seek data pos).lineOutcomes b n = (ls.map Except.ok ++ List.replicate n (Except.error PyErr.psEOF)).take n := by
  obtain ⟨ls, rest, h⟩ := lines_exist (data.drop pos) pos
  refine ⟨ls, rest, h, fun b n hb => lineOutcomes_spec hb h _ (inv_seek data pos) (by simp [PSt.seek]) ?_ ?_ n⟩
  · simp [PSt.seek, PSt.unread]
  · simp [PSt.seek, PSt.rpos]

/-- The lines put together are what was consumed. -/
theorem lines_concat {p w ls rest} (h : Lines p w ls rest) : w = (ls.map Prod.snd).flatten ++ rest := by
  induction h with
  | stop => rfl
  | line _ _ ih => simp [← ih]

example : (PSt.seek [97, 13, 10, 10, 98, 13, 99, 10, 100, 13] 0).lineOutcomes 2 6 =
    [.ok (0, [97, 13, 10]), .ok (3, [10]), .ok (4, [98, 13]), .ok (6, [99, 10]), .error .psEOF, .error .psEOF] := by decide +kernel

example : Lines 0 [97, 13, 10, 98, 13] [(0, [97, 13, 10])] [98, 13] :=
  .line (l := [97, 13, 10]) (.crlf (body := [97]) (by simp [NoEol])) (.stop (Or.inr ⟨[98], by simp [NoEol], rfl⟩))

/-! ### Backwards -/

theorem splitLastEol_spec (s : Bytes) :
    match splitLastEol s with
    | none => NoEol s
    | some (a, b) => s = a ++ b ∧ ∃ c r, b = c :: r ∧ (c = 10 ∨ c = 13) ∧ NoEol r := by
  induction s with
  | nil => simp [splitLastEol, NoEol]
  | cons c cs ih =>
    unfold splitLastEol
    cases hs : splitLastEol cs with
    | some q =>
      rw [hs] at ih
      obtain ⟨e, h⟩ := ih
      exact ⟨by rw [e]; rfl, h⟩
    | none =>
      rw [hs] at ih
      dsimp only
      by_cases hc : isEol c = true
      · rw [if_pos hc]; exact ⟨rfl, c, cs, rfl, (eol_iff c).mp hc, ih⟩
      · rw [if_neg hc]
        rw [eol_iff] at hc
        exact noEol_cons.mpr ⟨by simpa using hc, ih⟩

/-- A piece: a line end and the bytes after it, up to the next line end. -/
def Piece (s : Bytes) : Prop := ∃ c r, s = c :: r ∧ (c = 10 ∨ c = 13) ∧ NoEol r

theorem noEol_append {a b : Bytes} : NoEol (a ++ b) ↔ NoEol a ∧ NoEol b := by
  simp only [NoEol, List.mem_append]
  exact ⟨fun h => ⟨fun c hc => h c (Or.inl hc), fun c hc => h c (Or.inr hc)⟩,
    fun h c hc => hc.elim (h.1 c) (h.2 c)⟩

theorem revInner_spec (s buf : Bytes) (hb : NoEol buf) :
    (∀ x ∈ (revInner s buf).1, Piece x) ∧ NoEol (revInner s buf).2 ∧
    s ++ buf = (revInner s buf).2 ++ (revInner s buf).1.reverse.flatten := by
  generalize hn : s.length = n
  induction n using Nat.strongRecOn generalizing s buf with
  | ind n ih =>
    have h := splitLastEol_spec s
    rw [revInner]
    split
    · rename_i hs
      rw [hs] at h
      exact ⟨by simp, noEol_append.mpr ⟨h, hb⟩, by simp⟩
    · rename_i a b hs
      rw [hs] at h
      obtain ⟨e, c, r, hb2, hc, hr⟩ := h
      have hlt := splitLastEol_lt hs
      obtain ⟨i1, i2, i3⟩ := ih a.length (by omega) a [] (by simp [NoEol]) rfl
      dsimp only
      refine ⟨?_, i2, ?_⟩
      · intro x hx
        rcases List.mem_cons.mp hx with rfl | hx
        · exact ⟨c, r ++ buf, by rw [hb2]; rfl, hc, noEol_append.mpr ⟨hr, hb⟩⟩
        · exact i1 x hx
      · rw [List.append_nil] at i3
        rw [e, List.reverse_cons, List.flatten_append, ← List.append_assoc, ← i3]
        simp

theorem revLoop_spec {bufsiz : Nat} (hb : 0 < bufsiz) (data : Bytes) (pos : Nat) (hp : pos ≤ data.length) (buf : Bytes)
    (hbuf : NoEol buf) :
    (∀ x ∈ revLoop bufsiz data pos buf, Piece x) ∧
    ∃ head, NoEol head ∧ data.take pos ++ buf = head ++ (revLoop bufsiz data pos buf).reverse.flatten := by
  induction pos using Nat.strongRecOn generalizing buf with
  | ind pos ih =>
    rw [revLoop]
    split
    · rename_i h
      dsimp only
      generalize hs : (data.drop (pos - bufsiz)).take (pos - (pos - bufsiz)) = s
      obtain ⟨a1, a2, a3⟩ := revInner_spec s buf hbuf
      obtain ⟨b1, head, b2, b3⟩ := ih (pos - bufsiz) (by omega) (by omega) (revInner s buf).2 a2
      refine ⟨?_, head, b2, ?_⟩
      · intro x hx
        rcases List.mem_append.mp hx with hx | hx
        · exact a1 x hx
        · exact b1 x hx
      · have ht : data.take pos = data.take (pos - bufsiz) ++ s := by
          rw [← hs, ← List.take_add]; congr 1; omega
        rw [ht, List.append_assoc, a3, ← List.append_assoc, b3, List.reverse_append, List.flatten_append, List.append_assoc]
    · rename_i h
      have : pos = 0 := by omega
      subst this
      exact ⟨by simp, buf, hbuf, by simp⟩

/-- C19. For every file and buffer size: `revreadlines` yields pieces, each consisting of a line end and the bytes up to
the next line end; in reverse order they make up the whole file from its first line end on. -/
theorem revreadlines_suffix (b : Nat) (hb : 0 < b) (data : Bytes) :
    (∀ x ∈ revreadlines b data, Piece x) ∧
    ∃ head, NoEol head ∧ data = head ++ (revreadlines b data).reverse.flatten := by
  obtain ⟨h1, head, h2, h3⟩ := revLoop_spec hb data data.length (Nat.le_refl _) [] (by simp [NoEol])
  exact ⟨h1, head, h2, by simpa [revreadlines] using h3⟩

/-- Such a decomposition is unique. -/
theorem pieces_unique {head head' : Bytes} {ps ps' : List Bytes} (h : NoEol head) (h' : NoEol head')
    (hp : ∀ x ∈ ps, Piece x) (hp' : ∀ x ∈ ps', Piece x) (e : head ++ ps.flatten = head' ++ ps'.flatten) :
    head = head' ∧ ps = ps' := by
  have key : ∀ (ps ps' : List Bytes) (head head' : Bytes), NoEol head → NoEol head' → (∀ x ∈ ps, Piece x) → (∀ x ∈ ps', Piece x) →
      head ++ ps.flatten = head' ++ ps'.flatten → head = head' ∧ ps.flatten = ps'.flatten := by
    intro ps ps' head head' h h' hp hp' e
    -- the head is the part without line ends
    have hd : ∀ (head : Bytes) (ps : List Bytes), NoEol head → (∀ x ∈ ps, Piece x) →
        (head ++ ps.flatten).takeWhile (fun c => !isEol c) = head := by
      intro head ps h hp
      rw [List.takeWhile_append_of_pos (fun c hc => by
        have := h c hc
        simp only [Bool.not_eq_true']
        rw [← Bool.not_eq_true, eol_iff]; simp [this])]
      cases ps with
      | nil => simp
      | cons x xs =>
        obtain ⟨c, r, rfl, hc, _⟩ := hp x (by simp)
        simp [(eol_iff c).mpr hc]
    have h1 := hd head ps h hp
    have h2 := hd head' ps' h' hp'
    rw [e, h2] at h1
    subst h1
    exact ⟨rfl, List.append_cancel_left e⟩
  induction ps generalizing head head' ps' with
  | nil =>
    obtain ⟨a, b⟩ := key [] ps' head head' h h' hp hp' e
    refine ⟨a, ?_⟩
    cases ps' with
    | nil => rfl
    | cons x xs => obtain ⟨c, r, rfl, _⟩ := hp' x (by simp); simp at b
  | cons x xs ih =>
    obtain ⟨a, b⟩ := key (x :: xs) ps' head head' h h' hp hp' e
    refine ⟨a, ?_⟩
    obtain ⟨c, r, rfl, hc, hr⟩ := hp x (by simp)
    cases ps' with
    | nil => simp at b
    | cons y ys =>
      obtain ⟨c', r', rfl, hc', hr'⟩ := hp' y (by simp)
      simp only [List.flatten_cons, List.cons_append, List.cons.injEq] at b
      obtain ⟨rfl, b⟩ := b
      obtain ⟨rfl, rfl⟩ := ih hr hr' (fun z hz => hp z (by simp [hz])) (fun z hz => hp' z (by simp [hz])) b
      rfl

/-- C19, the result does not depend on the buffer size. -/
theorem revreadlines_independent (b b' : Nat) (hb : 0 < b) (hb' : 0 < b') (data : Bytes) :
    revreadlines b data = revreadlines b' data := by
  obtain ⟨h1, head, h2, h3⟩ := revreadlines_suffix b hb data
  obtain ⟨g1, head', g2, g3⟩ := revreadlines_suffix b' hb' data
  have := (pieces_unique h2 g2 (fun x hx => h1 x (by simpa using hx)) (fun x hx => g1 x (by simpa using hx)) (h3.symm.trans g3)).2
  simpa using this

example : revreadlines 3 [97, 10, 98, 99, 13, 10, 100, 101] = [[10, 100, 101], [13], [10, 98, 99]] := by decide +kernel

end Pdf
