import Verif.Model.FileParser
import Verif.Proofs.Object2
import Verif.Props.Lines
/-! The file parser without buffers: its results depend on the bytes only. -/

namespace Pdf
open Spec

variable {σ : Type}

theorem fillbuf_data (b : Nat) (ps : PSt) : (ps.fillbuf b).1.data = ps.data := by
  unfold PSt.fillbuf
  split
  · rfl
  · dsimp only; split <;> rfl

theorem nexttokenLoop_data (b fuel : Nat) (ps : PSt) : (ps.nexttokenLoop b fuel).2.data = ps.data := by
  induction fuel generalizing ps with
  | zero => rfl
  | succ fuel ih =>
    unfold PSt.nexttokenLoop
    split
    · rfl
    · have := fillbuf_data b ps
      split
      · rename_i h; rw [h] at this; exact this
      · rename_i h; rw [h] at this
        split
        · exact this
        · rw [ih]; exact this

theorem nexttoken_data (b : Nat) (ps : PSt) : (ps.nexttoken b).2.data = ps.data := nexttokenLoop_data _ _ _

/-- `scanEnd` on the bytes. -/
def scanU : (fuel : Nat) → (w : Bytes) → (len : Nat) → (acc : Bytes) → Nat × Bytes
  | 0, _, len, acc => (len, acc)
  | fuel + 1, w, len, acc =>
    match takeLine false w with
    | none => (len, acc)
    | some (line, w) =>
      match findSub kwEndstream line with
      | some i => (len + i, acc ++ line.take i)
      | none => scanU fuel w (len + line.length) (acc ++ line)

theorem scanEnd_eq {b : Nat} (hb : 0 < b) (fuel : Nat) (ps : PSt) (hi : ps.Inv) (hc : ps.charpos ≤ ps.buf.length) (len acc) :
    scanEnd b fuel ps len acc = scanU fuel ps.unread len acc := by
  induction fuel generalizing ps len acc with
  | zero => rfl
  | succ fuel ih =>
    have h := nextline_step hb ps hi hc
    unfold scanEnd scanU
    cases ht : takeLine false ps.unread with
    | none => rw [ht] at h; obtain ⟨ps', h1, _⟩ := h; rw [h1]
    | some q =>
      obtain ⟨l, rest⟩ := q
      rw [ht] at h
      obtain ⟨ps', h1, h2, h3, _, h5⟩ := h
      rw [h1]
      dsimp only
      cases findSub kwEndstream l with
      | some i => rfl
      | none => dsimp only; rw [ih ps' h2 h5, h3]

/-- `streamBody` on the bytes. -/
def streamBodyA (env : Env σ) (data : Bytes) (p : Nat) (d : List (Key × Obj)) (objlen : Int) : Except PyErr (Nat × StackSt) :=
  let start := (p : Int) + objlen
  if start < 0 then .error .valueError
  else
    let s := scanU (data.length + 1) (data.drop start.toNat) 0 []
    .ok (start.toNat + s.1,
      StackSt.push {} (p, .stream d (if env.fallback then readAt data p objlen ++ s.2 else readAt data p objlen)))

def streamKwA (env : Env σ) (data : Bytes) (st : StackSt) (pos : Nat) (s : σ) : Except PyErr (Stream × StackSt) × σ :=
  match (st.pop 1).1 with
  | [(_, o)] =>
    match env.dictValue o s with
    | (.error e, s) => (.error e, s)
    | (.ok d, s) =>
      match env.objlen d s with
      | (.error e, s) => (.error e, s)
      | (.ok objlen, s) =>
        match takeLine false (data.drop pos) with
        | none => (.ok (([], .psEOF), {}), s)
        | some (line, _) =>
          match streamBodyA env data (pos + line.length) d objlen with
          | .ok (p, st) => (.ok (lexRun {} p (data.drop p), st), s)
          | .error e => (.error e, s)
  | _ => (.error .valueError, s)

def nextA (env : Env σ) (data : Bytes) : (fuel : Nat) → Stream → StackSt → σ → Except PyErr (Nat × Obj) × σ
  | 0, _, _, s => (.error .recursion, s)
  | fuel + 1, w, st, s =>
    match st.results with
    | r :: _ => (.ok r, s)
    | [] =>
      match w with
      | ([], e) => (.error e, s)
      | ((pos, tok) :: ts, e) =>
        if tok = .kw kwStream then
          match streamKwA env data st pos s with
          | (.ok (w, st), s) => nextA env data fuel w st s
          | (.error e, s) => (.error e, s)
        else match st.feed fileHooks pos tok with
          | .ok st => nextA env data fuel (ts, e) st s
          | .error e => (.error e, s)

theorem fillbuf_rest (b : Nat) (ps : PSt) : (ps.fillbuf b).1.lex = ps.lex ∧ (ps.fillbuf b).1.toks = ps.toks := by
  unfold PSt.fillbuf
  split
  · exact ⟨rfl, rfl⟩
  · dsimp only; split <;> exact ⟨rfl, rfl⟩

theorem nextlineLoop_rest (b fuel : Nat) (ps : PSt) (line eol) :
    (ps.nextlineLoop b fuel line eol).2.data = ps.data ∧ (ps.nextlineLoop b fuel line eol).2.lex = ps.lex ∧
      (ps.nextlineLoop b fuel line eol).2.toks = ps.toks := by
  induction fuel generalizing ps line eol with
  | zero => exact ⟨rfl, rfl, rfl⟩
  | succ fuel ih =>
    unfold PSt.nextlineLoop
    have h1 := fillbuf_data b ps
    have h2 := fillbuf_rest b ps
    split
    · rename_i h; rw [h] at h1 h2; exact ⟨h1, h2⟩
    · rename_i h; rw [h] at h1 h2
      dsimp only at h1 h2
      dsimp only
      repeat' split
      all_goals first | exact ⟨h1, h2⟩ | (rw [(ih _ _ _).1, (ih _ _ _).2.1, (ih _ _ _).2.2]; exact ⟨h1, h2⟩)

theorem nextline_rest (b : Nat) (ps : PSt) :
    (ps.nextline b).2.data = ps.data ∧ (ps.nextline b).2.lex = ps.lex ∧ (ps.nextline b).2.toks = ps.toks := by
  have := nextlineLoop_rest b (ps.unread.length + 2) ps [] false
  unfold PSt.nextline
  split <;> (rename_i h; rw [h] at this; exact this)

def RelS (data : Bytes) (r : Except PyErr (PSt × StackSt) × σ) (a : Except PyErr (Stream × StackSt) × σ) : Prop :=
  match r with
  | (.ok (ps, st), s) => ps.Inv ∧ ps.data = data ∧ a = (.ok (ps.stream, st), s)
  | (.error e, s) => a = (.error e, s)

theorem streamKw_eq {b : Nat} (hb : 0 < b) (env : Env σ) (data : Bytes) (st : StackSt) (pos : Nat) (s : σ) :
    RelS data (streamKw env b data st pos s) (streamKwA env data st pos s) := by
  unfold streamKw streamKwA
  generalize (st.pop 1).1 = popped
  rcases popped with _ | ⟨⟨q, o⟩, _ | ⟨_, _⟩⟩
  · rfl
  · dsimp only
    rcases hd : env.dictValue o s with ⟨_ | d, s1⟩
    · rfl
    · dsimp only
      rcases hl : env.objlen d s1 with ⟨_ | objlen, s2⟩
      · rfl
      · dsimp only
        have h := nextline_step hb (PSt.seek data pos) (inv_seek data pos) (by simp [PSt.seek])
        have hu : (PSt.seek data pos).unread = data.drop pos := by simp [PSt.seek, PSt.unread]
        rw [hu] at h
        cases ht : takeLine false (data.drop pos) with
        | none =>
          rw [ht] at h
          obtain ⟨ps', h1, h2, h3⟩ := h
          have hr := nextline_rest b (PSt.seek data pos)
          rw [h1] at hr ⊢
          obtain ⟨r1, r2, r3⟩ := hr
          dsimp only at r1 r2 r3
          refine ⟨h2, r1, ?_⟩
          simp [PSt.stream, r2, r3, h3, PSt.seek, Stream.pre, lexRun]
        | some q =>
          obtain ⟨l, rest⟩ := q
          rw [ht] at h
          obtain ⟨ps', h1, h2, h3, _, _⟩ := h
          rw [h1]
          dsimp only
          unfold streamBody streamBodyA
          dsimp only
          split
          · rfl
          · dsimp only
            refine ⟨inv_seek _ _, rfl, ?_⟩
            rw [scanEnd_eq hb _ _ (inv_seek _ _) (by simp [PSt.seek]), stream_seek]
            simp [PSt.seek, PSt.unread]
  · rfl

theorem nextobjectF_eq {b : Nat} (hb : 0 < b) (env : Env σ) (fuel : Nat) (ps : PSt) (st : StackSt) (hi : ps.Inv) (s : σ) :
    nextobjectF env b fuel ps st s = nextA env ps.data fuel ps.stream st s := by
  induction fuel generalizing ps st s with
  | zero => rfl
  | succ fuel ih =>
    unfold nextobjectF nextA
    cases hres : st.results with
    | cons r rs => rfl
    | nil =>
      dsimp only
      have h := nexttoken_spec hb ps hi
      have hd := nexttoken_data b ps
      cases hn : ps.nexttoken b with
      | mk r ps' =>
      rw [hn] at h hd
      obtain ⟨hi', h⟩ := h
      cases hs : ps.stream with
      | mk ts e =>
      rw [hs] at h
      cases ts with
      | nil => obtain ⟨h1, _⟩ := h; dsimp only at h1; subst h1; rfl
      | cons t ts =>
        obtain ⟨h1, h2⟩ := h
        dsimp only at h1 h2 hd; subst h1
        obtain ⟨pos, tok⟩ := t
        dsimp only [fileStep]
        by_cases hk : tok = .kw kwStream
        · rw [if_pos hk, if_pos hk, hd]
          have := streamKw_eq hb env ps.data st pos s
          rcases hx : streamKw env b ps.data st pos s with ⟨_ | ⟨ps2, st2⟩, s2⟩
          · rw [hx] at this; simp only [RelS] at this; rw [this]
          · rw [hx] at this; obtain ⟨a1, a2, a3⟩ := this
            rw [a3]; dsimp only
            rw [ih _ _ a1, a2]
        · rw [if_neg hk, if_neg hk]
          cases st.feed fileHooks pos tok with
          | error e => rfl
          | ok st' => dsimp only; rw [ih _ _ hi', h2, hd]

/-- `_getobj_parse` on the bytes. -/
def skipA : (fuel : Nat) → Stream → Tok → List Tok → Except PyErr (Stream × Tok × List Tok)
  | 0, _, _, _ => .error .recursion
  | fuel + 1, s, kwd, x =>
    if kwd = .kw kwObj then .ok (s, kwd, x)
    else match s with
      | ([], e) => .error e
      | ((_, t) :: ts, e) => skipA fuel (ts, e) t (x ++ [t])

def fixA (fuel : Nat) (s : Stream) (objid1 kwd : Tok) (objid : Int) : Except PyErr (Stream × Tok × Tok) :=
  if objid1.isNum objid then .ok (s, objid1, kwd)
  else match skipA fuel s kwd [] with
    | .error e => .error e
    | .ok (s, kwd, x) =>
      match x.reverse with
      | [] => .ok (s, objid1, kwd)
      | [_] => .error .indexError
      | _ :: t :: _ => .ok (s, t, kwd)

def finishA (env : Env σ) (fuel : Nat) (data : Bytes) (w : Stream) (objid1 kwd : Tok) (objid : Int) (s : σ) : Except PyErr Obj × σ :=
  if ¬ objid1.isNum objid then (.error .pdfSyntaxError, s)
  else if kwd ≠ .kw kwObj then (.error .pdfSyntaxError, s)
  else match nextA env data fuel w {} s with
    | (.ok (_, o), s) => (.ok o, s)
    | (.error e, s) => (.error e, s)

def parseA (env : Env σ) (fuel : Nat) (data : Bytes) (w : Stream) (objid : Int) (s : σ) : Except PyErr Obj × σ :=
  match w with
  | ((_, t1) :: _ :: (_, t3) :: ts, e) =>
    match fixA fuel (ts, e) t1 t3 objid with
    | .error e => (.error e, s)
    | .ok (w, objid1, kwd) => finishA env fuel data w objid1 kwd objid s
  | (_, e) => (.error e, s)

theorem skipToObj_eq {b : Nat} (hb : 0 < b) (data : Bytes) (fuel : Nat) (ps : PSt) (hi : ps.Inv) (hd : ps.data = data) (kwd x) :
    match skipToObj b fuel ps kwd x with
    | .ok (ps', k, y) => ps'.Inv ∧ ps'.data = data ∧ skipA fuel ps.stream kwd x = .ok (ps'.stream, k, y)
    | .error e => skipA fuel ps.stream kwd x = .error e := by
  induction fuel generalizing ps kwd x with
  | zero => rfl
  | succ fuel ih =>
    unfold skipToObj skipA
    by_cases hk : kwd = .kw kwObj
    · rw [if_pos hk, if_pos hk]; exact ⟨hi, hd, rfl⟩
    · rw [if_neg hk, if_neg hk]
      have h := nexttoken_spec hb ps hi
      have hdd := nexttoken_data b ps
      cases hn : ps.nexttoken b with
      | mk r ps' =>
      rw [hn] at h hdd
      obtain ⟨hi', h⟩ := h
      cases hs : ps.stream with
      | mk ts e =>
      rw [hs] at h
      cases ts with
      | nil => obtain ⟨h1, _⟩ := h; dsimp only at h1; subst h1; rfl
      | cons t ts =>
        obtain ⟨h1, h2⟩ := h
        dsimp only at h1 h2 hdd; subst h1
        obtain ⟨pos, tok⟩ := t
        dsimp only
        rw [← h2]
        exact ih ps' hi' (hdd.trans hd) _ _

theorem fixObjid_eq {b : Nat} (hb : 0 < b) (data : Bytes) (fuel : Nat) (ps : PSt) (hi : ps.Inv) (hd : ps.data = data) (t k : Tok) (objid : Int) :
    match fixObjid b fuel ps t k objid with
    | .ok (ps', y) => ps'.Inv ∧ ps'.data = data ∧ fixA fuel ps.stream t k objid = .ok (ps'.stream, y)
    | .error e => fixA fuel ps.stream t k objid = .error e := by
  unfold fixObjid fixA
  by_cases hk : t.isNum objid = true
  · rw [if_pos hk, if_pos hk]; exact ⟨hi, hd, rfl⟩
  · rw [if_neg hk, if_neg hk]
    have h := skipToObj_eq hb data fuel ps hi hd k []
    cases hs : skipToObj b fuel ps k [] with
    | error e => rw [hs] at h; dsimp only at h; rw [h]
    | ok q =>
      obtain ⟨ps', k', y⟩ := q
      rw [hs] at h
      obtain ⟨h1, h2, h3⟩ := h
      rw [h3]
      dsimp only
      cases y.reverse with
      | nil => exact ⟨h1, h2, rfl⟩
      | cons a l => cases l with
        | nil => rfl
        | cons => exact ⟨h1, h2, rfl⟩

/-- What `_getobj_parse` returns depends on the bytes of the file only, not on the buffer. -/
theorem getobjParse_eq {b : Nat} (hb : 0 < b) (env : Env σ) (fuel : Nat) (data : Bytes) (pos : Nat) (objid : Int) (s : σ) :
    getobjParse env b fuel data pos objid s = parseA env fuel data (lexRun {} pos (data.drop pos)) objid s := by
  rw [← stream_seek]
  have step : ∀ ps : PSt, ps.Inv → ps.data = data →
      (∃ e ps', ps.nexttoken b = (.error e, ps') ∧ ps.stream = ([], e)) ∨
      (∃ t ps', ps.nexttoken b = (.ok t, ps') ∧ ps'.Inv ∧ ps'.data = data ∧ ps.stream = (t :: ps'.stream.1, ps'.stream.2)) := by
    intro ps hi hd
    have h := nexttoken_spec hb ps hi
    have hdd := nexttoken_data b ps
    cases hn : ps.nexttoken b with
    | mk r ps' =>
    rw [hn] at h hdd
    obtain ⟨hi', h⟩ := h
    cases hs : ps.stream with
    | mk ts e =>
    rw [hs] at h
    cases ts with
    | nil => obtain ⟨h1, _⟩ := h; dsimp only at h1; subst h1; exact Or.inl ⟨e, ps', rfl, rfl⟩
    | cons t ts =>
      obtain ⟨h1, h2⟩ := h
      dsimp only at h1 h2 hdd; subst h1
      exact Or.inr ⟨t, ps', rfl, hi', hdd.trans hd, by rw [h2]⟩
  unfold getobjParse
  rcases step _ (inv_seek data pos) rfl with ⟨e, ps1, h1, h2⟩ | ⟨t1, ps1, h1, i1, d1, e1⟩
  · rw [h1, h2]; rfl
  rw [h1, e1]
  dsimp only
  rcases step ps1 i1 d1 with ⟨e, ps2, h1, h2⟩ | ⟨t2, ps2, h1, i2, d2, e2⟩
  · rw [h1, h2]; rfl
  rw [h1, e2]
  dsimp only
  rcases step ps2 i2 d2 with ⟨e, ps3, h1, h2⟩ | ⟨t3, ps3, h1, i3, d3, e3⟩
  · rw [h1, h2]; rfl
  rw [h1, e3]
  obtain ⟨_, t1⟩ := t1
  obtain ⟨_, t3⟩ := t3
  dsimp only [parseA]
  have h := fixObjid_eq hb data fuel ps3 i3 d3 t1 t3 objid
  cases hf : fixObjid b fuel ps3 t1 t3 objid with
  | error e => rw [hf] at h; dsimp only at h ⊢; rw [show (ps3.stream.1, ps3.stream.2) = ps3.stream from rfl, h]
  | ok q =>
    obtain ⟨ps', o, k⟩ := q
    rw [hf] at h
    obtain ⟨a1, a2, a3⟩ := h
    dsimp only
    rw [show (ps3.stream.1, ps3.stream.2) = ps3.stream from rfl, a3]
    dsimp only [finishParse, finishA]
    split
    · rfl
    · split
      · rfl
      · rw [nextobjectF_eq hb env fuel ps' {} a1, a2]
        rfl

end Pdf
