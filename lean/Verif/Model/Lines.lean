import Verif.Model.Lexer
/-! Model of the line readers of `PSBaseParser` (PSBaseParser.py:77-129). -/

namespace Pdf

/-- The loop of `nextline` (PSBaseParser.py:83-102): `line` is `linebuf`, `eol` the flag. The bound on the number
of iterations is always sufficient (`nextline_lines`). -/
def PSt.nextlineLoop (bufsiz : Nat) : (fuel : Nat) → PSt → (line : Bytes) → (eol : Bool) → Except PyErr Bytes × PSt
  | 0, ps, _, _ => (.error .recursion, ps)
  | fuel + 1, ps, line, eol =>
    match ps.fillbuf bufsiz with
    | (ps, true) => (.error .psEOF, ps)
    | (ps, false) =>
      let w := ps.buf.drop ps.charpos
      if eol then
        if w.take 1 = [10] then (.ok (line ++ [10]), { ps with charpos := ps.charpos + 1 })
        else (.ok line, ps)
      else
        let pre := w.takeWhile (fun c => !isEol c)
        match w.dropWhile (fun c => !isEol c) with
        | c :: _ =>
          let ps := { ps with charpos := ps.charpos + pre.length + 1 }
          if c = 13 then PSt.nextlineLoop bufsiz fuel ps (line ++ pre ++ [c]) true
          else (.ok (line ++ pre ++ [c]), ps)
        | [] => PSt.nextlineLoop bufsiz fuel { ps with charpos := ps.buf.length } (line ++ w) false

/-- `nextline` (PSBaseParser.py:77-104). -/
def PSt.nextline (bufsiz : Nat) (ps : PSt) : Except PyErr (Nat × Bytes) × PSt :=
  match ps.nextlineLoop bufsiz (ps.unread.length + 2) [] false with
  | (.ok line, ps') => (.ok (ps.bufpos + ps.charpos, line), ps')
  | (.error e, ps') => (.error e, ps')

/-- The outcomes of `n` successive calls of `nextline` (a client of PSBaseParser.py:77-104). -/
def PSt.lineOutcomes (bufsiz : Nat) : Nat → PSt → List (Except PyErr (Nat × Bytes))
  | 0, _ => []
  | n + 1, ps => let (r, ps') := ps.nextline bufsiz; r :: PSt.lineOutcomes bufsiz n ps'

/-- Splits before the last CR or LF: `(s[:n], s[n:])` with `n = max(s.rfind(b'\r'), s.rfind(b'\n'))`, `none` if
there is none (PSBaseParser.py:122-123). -/
def splitLastEol : Bytes → Option (Bytes × Bytes)
  | [] => none
  | c :: cs =>
    match splitLastEol cs with
    | some (a, b) => some (c :: a, b)
    | none => if isEol c then some ([], c :: cs) else none

theorem splitLastEol_lt {s a b : Bytes} (h : splitLastEol s = some (a, b)) : a.length < s.length := by
  induction s generalizing a b with
  | nil => simp [splitLastEol] at h
  | cons c cs ih =>
    unfold splitLastEol at h
    cases hs : splitLastEol cs with
    | some q =>
      obtain ⟨a', b'⟩ := q
      rw [hs] at h
      simp only [Option.some.injEq, Prod.mk.injEq] at h
      obtain ⟨rfl, rfl⟩ := h
      have := ih hs
      simp; omega
    | none =>
      rw [hs] at h
      dsimp only at h
      split at h
      · simp only [Option.some.injEq, Prod.mk.injEq] at h
        obtain ⟨rfl, rfl⟩ := h
        simp
      · cases h

/-- The inner loop of `revreadlines` (PSBaseParser.py:121-128): the pieces yielded, and the new `buf`. -/
def revInner (s buf : Bytes) : List Bytes × Bytes :=
  match _h : splitLastEol s with
  | none => ([], s ++ buf)
  | some (a, b) => let r := revInner a []; ((b ++ buf) :: r.1, r.2)
termination_by s.length
decreasing_by exact splitLastEol_lt _h

/-- `revreadlines` (PSBaseParser.py:106-129) from position `pos` down with the pending `buf`. -/
def revLoop (bufsiz : Nat) (data : Bytes) (pos : Nat) (buf : Bytes) : List Bytes :=
  if _h : 0 < pos ∧ 0 < bufsiz then
    let pos' := pos - bufsiz
    let s := (data.drop pos').take (pos - pos')
    let r := revInner s buf
    r.1 ++ revLoop bufsiz data pos' r.2
  else []
termination_by pos
decreasing_by omega

/-- `revreadlines` (PSBaseParser.py:106-129). -/
def revreadlines (bufsiz : Nat) (data : Bytes) : List Bytes := revLoop bufsiz data data.length []

end Pdf
