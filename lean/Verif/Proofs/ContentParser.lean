import Verif.Proofs.LexKont
/-! The content parser without buffers. -/

namespace Pdf

/-- A token, the stream `self.fp` reads when it is returned, and the streams after it. -/
abbrev Ann := (Nat × Tok) × Bytes × List Bytes

def annot (d : Bytes) (rest : List Bytes) (t : Nat × Tok) : Ann := (t, d, rest)

/-- The tokens of the streams that are not opened yet. -/
def lexNext : List Bytes → LexSt → TStream Ann
  | [], _ => ([], .psEOF)
  | x :: rest, st => lexRunK (annot x rest) (lexNext rest) st 0 x

/-- The tokens of the rest `w` of the stream `d`, `p` being the position of `w` in it, and of the streams after it. -/
def lexFrom (d : Bytes) (rest : List Bytes) (st : LexSt) (p : Nat) (w : Bytes) : TStream Ann :=
  lexRunK (annot d rest) (lexNext rest) st p w

theorem lexNext_cons (x : Bytes) (rest : List Bytes) (st : LexSt) : lexNext (x :: rest) st = lexFrom x rest st 0 x := rfl

def CSt.Inv (cs : CSt) : Prop :=
  if cs.opened then cs.ps.Inv else cs.ps.toks = [] ∧ cs.ps.buf = []

/-- The tokens to come. -/
def CSt.str (cs : CSt) : TStream Ann :=
  if cs.opened then TStream.pre (annot cs.ps.data cs.streams) cs.ps.toks (lexFrom cs.ps.data cs.streams cs.ps.lex cs.ps.rpos cs.ps.unread)
  else lexNext cs.streams cs.ps.lex

/-- A function of the bytes that are not read yet, given by `G` (of the current stream, the streams after it, the position in
the current stream, its unread bytes) and `N` (of the streams that are not opened yet). -/
def CSt.view {R : Type} (cs : CSt) (G : Bytes → List Bytes → Nat → Bytes → R) (N : List Bytes → R) : R :=
  if cs.opened then G cs.ps.data cs.streams cs.ps.rpos cs.ps.unread else N cs.streams

structure FillOk (cs cs' : CSt) (eof : Bool) : Prop where
  inv : cs'.Inv
  lex : cs'.ps.lex = cs.ps.lex
  toks : cs'.ps.toks = cs.ps.toks
  view : ∀ {R : Type} (G : Bytes → List Bytes → Nat → Bytes → R) (N : List Bytes → R), (∀ d rest p, G d rest p [] = N rest) →
    (∀ x rest, N (x :: rest) = G x rest 0 x) → cs'.view G N = cs.view G N ∧ (eof = true → cs.view G N = N [])
  opened : eof = false → cs'.opened = true
  more : eof = false → cs'.ps.charpos < cs'.ps.buf.length
  len : cs'.unread.length = cs.unread.length

theorem str_view (cs : CSt) (h : cs.ps.toks = []) :
    cs.str = cs.view (fun d rest p w => lexFrom d rest cs.ps.lex p w) (fun s => lexNext s cs.ps.lex) := by
  simp [CSt.str, CSt.view, h]

theorem FillOk.str {cs cs' eof} (h : FillOk cs cs' eof) (ht : cs.ps.toks = []) :
    cs'.str = cs.str ∧ (eof = true → cs.str = ([], .psEOF)) := by
  rw [str_view cs ht, str_view cs' (h.toks.trans ht), h.lex]
  exact h.view (fun d rest p w => lexFrom d rest cs.ps.lex p w) (fun s => lexNext s cs.ps.lex) (fun _ _ _ => rfl) (fun _ _ => rfl)

theorem fillbuf_fresh {b : Nat} (hb : 0 < b) (ps : PSt) (d : Bytes) (hbuf : ps.buf = []) :
    (PSt.fillbuf b { ps with data := d, fpos := 0 } = ({ ps with data := d, fpos := 0, bufpos := 0, buf := [] }, true) ∧ d = []) ∨
    (PSt.fillbuf b { ps with data := d, fpos := 0 } =
      ({ ps with data := d, bufpos := 0, buf := d.take b, fpos := (d.take b).length, charpos := 0 }, false) ∧ d.take b ≠ []) := by
  unfold PSt.fillbuf
  rw [if_neg (by simp [hbuf])]
  dsimp only
  simp only [List.drop_zero]
  split
  · rename_i h
    left
    refine ⟨rfl, ?_⟩
    cases d with
    | nil => rfl
    | cons a l => cases b with
      | zero => omega
      | succ n => simp at h
  · rename_i h
    right
    exact ⟨by simp, h⟩

theorem refill_spec {b : Nat} (hb : 0 < b) (streams : List Bytes) (ps : PSt) (hbuf : ps.buf = []) (ht : ps.toks = []) :
    FillOk ⟨streams, false, ps⟩ (CSt.refill b streams ps).1 (CSt.refill b streams ps).2 := by
  induction streams generalizing ps with
  | nil =>
    refine ⟨?_, rfl, rfl, fun _ _ _ _ => ⟨rfl, fun _ => rfl⟩, by simp [CSt.refill], by simp [CSt.refill], rfl⟩
    simp [CSt.refill, CSt.Inv, ht, hbuf]
  | cons d ds ih =>
    unfold CSt.refill
    rcases fillbuf_fresh hb ps d hbuf with ⟨h, hd⟩ | ⟨h, hd⟩
    · rw [h]
      dsimp only
      subst hd
      have := ih { ps with data := [], fpos := 0, bufpos := 0, buf := [] } rfl ht
      refine ⟨this.inv, this.lex, this.toks, fun G N h1 h2 => ?_, this.opened, this.more, this.len.trans ?_⟩
      · have := this.view G N h1 h2
        simpa [CSt.view, h1, h2] using this
      · simp [CSt.unread, hbuf]
    · rw [h]
      dsimp only
      refine ⟨?_, rfl, rfl, fun G N h1 h2 => ⟨?_, by simp⟩, by simp, fun _ => ?_, ?_⟩
      · simp [CSt.Inv, PSt.Inv]
      · simp only [CSt.view, if_true, h2, PSt.rpos, PSt.unread, List.drop_zero, Nat.sub_zero,
          Nat.sub_self, Bool.false_eq_true, if_false]
        congr 1
        rw [List.length_take]
        rcases Nat.le_total b d.length with hl | hl
        · rw [Nat.min_eq_left hl, List.take_append_drop]
        · rw [Nat.min_eq_right hl, List.take_of_length_le hl]; simp
      · exact List.length_pos_iff.mpr hd
      · simp [CSt.unread, hbuf]
        omega

theorem cfillbuf_spec {b : Nat} (hb : 0 < b) (cs : CSt) (hi : cs.Inv) (ht : cs.ps.toks = []) :
    FillOk cs (cs.fillbuf b).1 (cs.fillbuf b).2 := by
  obtain ⟨streams, opened, ps⟩ := cs
  dsimp only at ht
  unfold CSt.fillbuf
  dsimp only
  cases opened with
  | false =>
    simp only [CSt.Inv, Bool.false_eq_true, if_false] at hi
    rw [if_neg (by simp [hi.2]), if_neg (by simp)]
    exact refill_spec hb streams ps hi.2 ht
  | true =>
    simp only [CSt.Inv, if_true] at hi
    split
    · rename_i h
      exact ⟨by simpa [CSt.Inv] using hi, rfl, rfl, fun _ _ _ _ => ⟨rfl, by simp⟩, by simp, fun _ => h, rfl⟩
    · rename_i hcp
      rw [if_pos rfl]
      obtain ⟨f1, f2, f3, f4, f5, f6, f7⟩ := fillbuf_spec hb ps hi
      have hdat : (ps.fillbuf b).1.data = ps.data := by
        unfold PSt.fillbuf
        split
        · rfl
        · dsimp only; split <;> rfl
      have hbuf : (ps.fillbuf b).2 = true → (ps.fillbuf b).1.buf = [] := by
        unfold PSt.fillbuf
        rw [if_neg hcp]
        dsimp only; split <;> simp
      cases hfb : ps.fillbuf b with
      | mk ps1 e =>
      rw [hfb] at f1 f2 f3 f4 f5 f6 f7 hdat hbuf
      dsimp only at f1 f2 f3 f4 f5 f6 f7 hdat hbuf
      cases e with
      | false =>
        dsimp only
        refine ⟨by simpa [CSt.Inv] using f1, f4, f5, fun G N h1 h2 => ⟨?_, by simp⟩, by simp, fun _ => f7 rfl, ?_⟩
        · simp [CSt.view, hdat, f2, f3]
        · have := congrArg List.length f3
          simp only [PSt.unread, List.length_append] at this
          simp only [CSt.unread, List.length_append, if_true]
          omega
      | true =>
        dsimp only
        have hu := f6 rfl
        have := refill_spec hb streams ps1 (hbuf rfl) (f5.trans ht)
        refine ⟨this.inv, this.lex.trans f4, this.toks.trans f5, fun G N h1 h2 => ?_, this.opened,
          this.more, this.len.trans ?_⟩
        · have hv : CSt.view ⟨streams, true, ps⟩ G N = CSt.view ⟨streams, false, ps1⟩ G N := by
            simp [CSt.view, hu, h1]
          rw [hv]
          exact this.view G N h1 h2
        simp only [PSt.unread, List.append_eq_nil_iff] at hu
        simp [CSt.unread, hu, hbuf rfl]

/-- What one call of `nexttoken` has to do with the remaining tokens. -/
def CNextOk (s : TStream Ann) (r : Except PyErr (Nat × Tok) × CSt) : Prop :=
  match s with
  | ((t, d, rest) :: ts, e) => r.1 = .ok t ∧ r.2.Inv ∧ r.2.opened = true ∧ r.2.ps.data = d ∧ r.2.streams = rest ∧ r.2.str = (ts, e)
  | ([], e) => r.1 = .error e

theorem cnexttokenLoop_spec {b : Nat} (hb : 0 < b) (fuel : Nat) (cs : CSt) (hi : cs.Inv)
    (hfuel : 0 < fuel ∧ (cs.ps.toks = [] → 3 * cs.unread.length + cs.ps.lex.fn.rank + 2 ≤ fuel)) :
    CNextOk cs.str (cs.nexttokenLoop b fuel) := by
  induction fuel generalizing cs with
  | zero => omega
  | succ fuel ih =>
    unfold CSt.nexttokenLoop
    cases ht : cs.ps.toks with
    | cons t ts =>
      have ho : cs.opened = true := by
        cases h : cs.opened with
        | true => rfl
        | false => simp [CSt.Inv, h, ht] at hi
      have hs : cs.str = (annot cs.ps.data cs.streams t :: (ts.map (annot cs.ps.data cs.streams) ++
          (lexFrom cs.ps.data cs.streams cs.ps.lex cs.ps.rpos cs.ps.unread).1),
          (lexFrom cs.ps.data cs.streams cs.ps.lex cs.ps.rpos cs.ps.unread).2) := by
        simp [CSt.str, ho, TStream.pre, ht]
      rw [hs]
      refine ⟨rfl, ?_, ho, rfl, rfl, ?_⟩
      · simp only [CSt.Inv, ho, if_true] at hi ⊢; exact hi
      · simp only [CSt.str, ho, if_true]; rfl
    | nil =>
      dsimp only
      have hf := cfillbuf_spec hb cs hi ht
      cases hfb : cs.fillbuf b with
      | mk cs1 e =>
      rw [hfb] at hf
      dsimp only at hf
      cases e with
      | true => rw [(hf.str ht).2 rfl]; rfl
      | false =>
        dsimp only
        have ho := hf.opened rfl
        have hlt := hf.more rfl
        have hfu := hfuel.2 ht
        have hps : cs1.ps.Inv := by have := hf.inv; simpa [CSt.Inv, ho] using this
        have hrp : cs1.ps.bufpos + cs1.ps.charpos = cs1.ps.rpos := by
          simp only [PSt.rpos, PSt.Inv] at *; omega
        have hwne : cs1.ps.buf.drop cs1.ps.charpos ≠ [] := by
          intro h; have := congrArg List.length h; rw [List.length_drop] at this; simp at this; omega
        have hwl : (cs1.ps.buf.drop cs1.ps.charpos).length = cs1.ps.buf.length - cs1.ps.charpos := List.length_drop
        have hcall := parseCall_okK (tag := annot cs1.ps.data cs1.streams) (k := lexNext cs1.streams) cs1.ps.lex
          (cs1.ps.bufpos + cs1.ps.charpos) _ hwne
        have ht1 : cs1.ps.toks = [] := hf.toks.trans ht
        have hs : cs.str = lexFrom cs1.ps.data cs1.streams cs1.ps.lex cs1.ps.rpos (cs1.ps.buf.drop cs1.ps.charpos ++ cs1.ps.data.drop cs1.ps.fpos) := by
          rw [← (hf.str ht).1]; simp [CSt.str, ho, ht1, PSt.unread]
        cases hc : parseCall cs1.ps.lex (cs1.ps.bufpos + cs1.ps.charpos) (cs1.ps.buf.drop cs1.ps.charpos) with
        | error e =>
          rw [hc] at hcall
          have := hcall (cs1.ps.data.drop cs1.ps.fpos)
          rw [hrp] at this
          rw [hs, lexFrom, this]
          rfl
        | ok out =>
          obtain ⟨lex', n, tk⟩ := out
          rw [hc] at hcall
          obtain ⟨c1, c2, c3, c4⟩ := hcall
          have c5 := c4 (cs1.ps.data.drop cs1.ps.fpos)
          rw [hwl] at c1
          dsimp only
          have hst : CSt.str { cs1 with ps := { cs1.ps with lex := lex', charpos := cs1.ps.charpos + n, toks := cs1.ps.toks ++ tk } } = cs.str := by
            rw [hs]
            simp only [CSt.str, ho, if_true, ht1, List.nil_append, lexFrom]
            rw [← hrp, c5]
            congr 1
            congr 1
            · simp only [PSt.rpos, PSt.Inv] at *; omega
            · simp [PSt.unread, List.drop_drop]
          rw [← hst]
          refine ih _ (by simpa [CSt.Inv, ho, PSt.Inv] using hps) ⟨by omega, fun _ => ?_⟩
          have hr := rank_le lex'.fn
          have hr' := rank_le cs.ps.lex.fn
          have hul := hf.len
          simp only [CSt.unread, ho, if_true, List.length_append, List.length_drop] at hul hfu ⊢
          rw [hf.lex] at c3
          rw [← hul] at hfu
          rcases c3 with c3 | c3 <;> omega

theorem cnexttoken_spec {b : Nat} (hb : 0 < b) (cs : CSt) (hi : cs.Inv) : CNextOk cs.str (cs.nexttoken b) :=
  cnexttokenLoop_spec hb _ cs hi ⟨by omega, fun _ => by have := rank_le cs.ps.lex.fn; omega⟩

end Pdf
