import Verif.Props.Interp
/-! Text lines (C38). -/

namespace Pdf
open Pdf.Spec

/-- The text line of the state is that line. The code stores the leading with the opposite sign. -/
def AtLine (s : St) (l : Line) : Prop := (∀ p, applyPt s.text.matrix p = l.place p) ∧ s.text.leading = -l.leading

/-- Where the next glyph goes, relative to the start of the line. -/
def pen (s : St) : Option (ℚ × ℚ) := s.lines[s.text.linematrix]?

/-- The name of the operator. -/
def Spec.LineOp.name : LineOp → String
  | .BT => "BT"
  | .Td .. => "Td"
  | .TD .. => "TD"
  | .Tm .. => "Tm"
  | .Tstar => "T*"
  | .TL _ => "TL"

/-- Its operands. -/
def Spec.LineOp.numbers : LineOp → List ℚ
  | .BT => []
  | .Td x y => [x, y]
  | .TD x y => [x, y]
  | .Tm a b c d e f => [a, b, c, d, e, f]
  | .Tstar => []
  | .TL l => [l]

theorem pen_newLine (s : St) (f : TState → TState) : pen (newLine s f) = some (0, 0) := by
  simp [pen, newLine]

theorem numbers_operands {as : List Obj} {qs : List ℚ} (h : as.map Obj.num? = qs.map some) : as.length = qs.length ∧ ∀ a ∈ as, Operand a := by
  refine ⟨by simpa using congrArg List.length h, ?_⟩
  intro a ha
  have : a.num? ∈ qs.map some := h ▸ List.mem_map_of_mem ha
  obtain ⟨q, _, hq⟩ := List.mem_map.mp this
  exact num?_operand hq.symm

/-- Each of the operators, given its operands in any notation, moves the text line as the specification says; after those that begin a line
the pen is at its start. `BT` within a text object is an error. -/
theorem line_operator (R : Resolver) (op : LineOp) (as : List Obj) (has : as.map Obj.num? = op.numbers.map some) (s : St) (l : Line) (hl : AtLine s l)
    (hb : op = .BT → s.block = none) :
    ∃ s', execs R (as ++ [operator op.name]) s = .ok s' ∧ AtLine s' (op.step l) ∧ ((∀ x, op ≠ .TL x) → pen s' = some (0, 0)) ∧
      s'.tmatrix = s.tmatrix ∧ s'.graphics = s.graphics ∧ s'.text.font = s.text.font := by
  obtain ⟨hlen, hop⟩ := numbers_operands has
  obtain ⟨hp, hd⟩ := hl
  cases op with
  | BT =>
    obtain rfl : as = [] := by simpa [LineOp.numbers] using has
    refine ⟨{ newLine s (fun t => { t with matrix := Mat.identity }) with block := some {} }, ?_, ⟨fun p => apply_id p, hd⟩, fun _ => pen_newLine s fun t => { t with matrix := Mat.identity }, rfl, rfl, rfl⟩
    refine (exec_op R s [] "BT" _ hop rfl).trans ?_
    simp only [opBegin, hb rfl]
  | Td x y =>
    match as, hlen, has with
    | [a, b], _, has =>
    simp only [LineOp.numbers, List.map_cons, List.map_nil, List.cons.injEq, and_true] at has
    refine ⟨newLine s (fun t => { t with matrix := ⟨t.matrix.a, t.matrix.b, t.matrix.c, t.matrix.d, x * t.matrix.a + y * t.matrix.c + t.matrix.e, x * t.matrix.b + y * t.matrix.d + t.matrix.f⟩ }), (exec_op R s [a, b] "Td" _ hop rfl).trans ?_, ⟨?_, ?_⟩, fun _ => pen_newLine .., rfl, rfl, rfl⟩
    · simp only [opMove, num_of has.1, num_of has.2, bind, Except.bind]
    · intro p
      simp only [LineOp.step, Line.move, ← hp]
      simp only [applyPt, newLine, Prod.mk.injEq]
      constructor <;> ring
    · exact hd
  | TD x y =>
    match as, hlen, has with
    | [a, b], _, has =>
    simp only [LineOp.numbers, List.map_cons, List.map_nil, List.cons.injEq, and_true] at has
    refine ⟨newLine s (fun t => { t with leading := y, matrix := ⟨t.matrix.a, t.matrix.b, t.matrix.c, t.matrix.d, x * t.matrix.a + y * t.matrix.c + t.matrix.e, x * t.matrix.b + y * t.matrix.d + t.matrix.f⟩ }), (exec_op R s [a, b] "TD" _ hop rfl).trans ?_, ⟨?_, ?_⟩, fun _ => pen_newLine .., rfl, rfl, rfl⟩
    · simp only [opMoveLead, num_of has.1, num_of has.2, bind, Except.bind]
    · intro p
      simp only [LineOp.step, Line.move, ← hp]
      simp only [applyPt, newLine, Prod.mk.injEq]
      constructor <;> ring
    · simp [newLine, LineOp.step, Line.move]
  | Tm a b c d e f =>
    obtain ⟨h1, _, _⟩ := matOf_of (m := ⟨a, b, c, d, e, f⟩) has
    refine ⟨newLine s (fun t => { t with matrix := ⟨a, b, c, d, e, f⟩ }), (exec_op R s as "Tm" opMatrix hop (by rw [hlen]; rfl)).trans ?_, ⟨?_, ?_⟩, fun _ => pen_newLine .., rfl, rfl, rfl⟩
    · simp only [opMatrix, h1, bind, Except.bind]
    · intro p
      rfl
    · exact hd
  | Tstar =>
    obtain rfl : as = [] := by simpa [LineOp.numbers] using has
    refine ⟨nextLine s, exec_op R s [] "T*" _ hop rfl, ⟨?_, hd⟩, fun _ => pen_newLine .., rfl, rfl, rfl⟩
    intro p
    simp only [LineOp.step, Line.move, ← hp]
    simp only [applyPt, nextLine, newLine, hd, Prod.mk.injEq]
    constructor <;> ring
  | TL x =>
    match as, hlen, has with
    | [a], _, has =>
    simp only [LineOp.numbers, List.map_cons, List.map_nil, List.cons.injEq, and_true] at has
    refine ⟨{ s with text := { s.text with leading := -x } }, (exec_op R s [a] "TL" _ hop rfl).trans ?_, ⟨hp, rfl⟩, fun h => absurd rfl (h x), rfl, rfl, rfl⟩
    simp only [opLeading, num_of has]

/-- The methods of the operators that move the text line, and of `Q`. -/
def movers : List Bytes := [asc "BT", asc "Td", asc "TD", asc "Tm", asc "T_a", asc "TL", asc "_q", asc "Q"]

theorem commands_line (R : Resolver) : ∀ e ∈ commands R, e.1 ∉ movers → OpKeeps e.2.2 fun s => (s.text.matrix, s.text.leading) := by
  have l : ∀ {P : (Bytes × Nat × Op) → Prop}, (∀ e ∈ commands R, P e) ↔ List.Forall P (commands R) := fun {P} => (List.forall_iff_forall_mem).symm
  rw [l]
  simp only [commands, List.Forall]
  refine ⟨?_, ?_, ?_, ?_, ?_, ?_, ?_, ?_, ?_, ?_, ?_, ?_, ?_, ?_, ?_, ?_, ?_, ?_, ?_, ?_, ?_, ?_, ?_, ?_, ?_, ?_, ?_, ?_, ?_, ?_, ?_, ?_, ?_, ?_, ?_, ?_,
    ?_, ?_, ?_, ?_, ?_, ?_, ?_, ?_, ?_, ?_, ?_, ?_, ?_, ?_, ?_, ?_, ?_, ?_, ?_, ?_, ?_, ?_⟩ <;> intro hn
  all_goals first
    | exact absurd (show _ ∈ movers by decide) hn
    | exact keeps_concat (fun _ _ => rfl) | exact keeps_setG (fun _ _ => rfl) _ | exact keeps_dash (fun _ _ => rfl)
    | exact keeps_space (fun _ _ => rfl) _ | exact keeps_color (fun _ _ => rfl) _ _ | exact keeps_rgb (fun _ _ => rfl) _
    | exact keeps_custom (fun _ _ _ => rfl) _ _ | exact keeps_curve (fun _ _ => rfl) _ | exact keeps_rect (fun _ _ => rfl)
    | exact keeps_endPath (fun _ _ => rfl) | exact keeps_paint (fun _ _ _ => rfl) _ | exact keeps_closePaint (fun _ _ _ => rfl) _
    | exact keeps_end (fun _ _ _ => rfl) | exact keeps_showArray (fun _ _ _ => rfl) | exact keeps_show (fun _ _ _ => rfl)
    | exact keeps_image (fun _ _ => rfl) | exact keeps_xobject (fun _ _ => rfl) _
    | skip
  · intro args s s' h; cases h; rfl
  · intro args s s' h; simp only [setT] at h; split at h <;> cases h; rfl
  · intro args s s' h; simp only [setT] at h; split at h <;> cases h; rfl
  · intro args s s' h; simp only [setT] at h; split at h <;> cases h; rfl
  · intro args s s' h
    simp only [opFont] at h
    split at h
    · split at h
      · cases h
      · split at h <;> cases h
        rfl
    · cases h
  · intro args s s' h; simp only [setT] at h; split at h <;> cases h; rfl
  · intro args s s' h; simp only [setT] at h; split at h <;> cases h; rfl
  · intro args s s' h
    simp only [opDoubleQuote] at h
    split at h
    · have := showText_keeps (proj := fun s => (s.text.matrix, s.text.leading)) (fun _ _ _ => rfl) h
      exact this
    · cases h

/-- Content with the operators that move the text line, in order: all other operators and operands may come in between. A `'` counts as
`T*`. -/
inductive Moves : List Obj → List LineOp → Prop where
  | nil : Moves [] []
  | op {op : LineOp} {as p : List Obj} {ops : List LineOp} (has : as.map Obj.num? = op.numbers.map some) (h : Moves p ops) :
      Moves (as ++ operator op.name :: p) (op :: ops)
  | quote {o : Obj} {p : List Obj} {ops : List LineOp} (ho : Operand o) (h : Moves p ops) : Moves (o :: operator "'" :: p) (.Tstar :: ops)
  | operand {o : Obj} {p : List Obj} {ops : List LineOp} (ho : Operand o) (h : Moves p ops) : Moves (o :: p) ops
  | other {n : Bytes} {p : List Obj} {ops : List LineOp} (hn : methodName n ∉ movers) (h : Moves p ops) : Moves (.kw n :: p) ops

theorem exec_line (R : Resolver) (s s' : St) (n : Bytes) (hn : methodName n ∉ movers) (h : exec R s (.kw n) = .ok s') (l : Line) (hl : AtLine s l) : AtLine s' l := by
  simp only [exec] at h
  split at h
  · cases h; exact hl
  · rename_i k f hf
    have hk := commands_line R _ (dictGet_mem_list hf) hn
    have key : ∀ as s0, s0.text = s.text → f as s0 = .ok s' → AtLine s' l := by
      intro as s0 h0 hf
      have := hk as s0 s' hf
      simp only [Prod.mk.injEq] at this
      obtain ⟨h1, h2⟩ := this
      rw [h0] at h1 h2
      exact ⟨fun p => h1 ▸ hl.1 p, h2 ▸ hl.2⟩
    split at h
    · exact key _ _ rfl h
    · split at h
      · exact key _ { s with args := (popArgs k s.args).2 } rfl h
      · cases h

theorem nextLine_step (s : St) (l : Line) (hl : AtLine s l) : AtLine (nextLine s) (LineOp.step l .Tstar) := by
  obtain ⟨hp, hd⟩ := hl
  refine ⟨fun p => ?_, hd⟩
  simp only [LineOp.step, Line.move, ← hp]
  simp only [applyPt, nextLine, newLine, hd, Prod.mk.injEq]
  constructor <;> ring

/-- After any content the text line is where its operators, in order, have moved it: `Td` offsets accumulate, `Tm` replaces the line, `TD` also
sets the leading, `'` advances a line. (For `"`, which is one of the operators in between here, see `double_quote_counterexample`.) -/
theorem text_lines_partial (R : Resolver) (p : List Obj) (ops : List LineOp) (hm : Moves p ops) (s s' : St) (l : Line) (hl : AtLine s l)
    (h : execs R p s = .ok s') : AtLine s' (ops.foldl LineOp.step l) := by
  induction hm generalizing s l with
  | nil => cases h; exact hl
  | @op op as p ops has _ ih =>
    rw [execs_snoc] at h
    by_cases hb : op = .BT → s.block = none
    · obtain ⟨s1, h1, h2, _⟩ := line_operator R op as has s l hl hb
      rw [h1] at h
      exact ih s1 _ h2 h
    · push Not at hb
      obtain ⟨rfl, hb⟩ := hb
      obtain rfl : as = [] := by simpa [LineOp.numbers] using has
      rw [exec_op R s [] LineOp.BT.name opBegin (by simp) rfl] at h
      simp only [opBegin] at h
      split at h
      · cases h
      · rename_i hx
        split at hx
        · cases hx
        · exact absurd (by assumption) hb
  | @quote o p ops ho _ ih =>
    rw [show o :: operator "'" :: p = [o] ++ operator "'" :: p from rfl, execs_snoc, exec_op R s [o] "'" opQuote (by simpa using ho) rfl] at h
    split at h
    · cases h
    · rename_i s1 h1
      refine ih s1 _ ?_ h
      have := showText_keeps (proj := St.text) (fun _ _ _ => rfl) h1
      have h2 := nextLine_step s l hl
      exact ⟨fun p => this ▸ h2.1 p, this ▸ h2.2⟩
  | @operand o p ops ho _ ih =>
    obtain ⟨s1, h1, h2⟩ := execs_ok_cons h
    rw [exec_operand R s o ho] at h1
    cases h1
    exact ih { s with args := s.args ++ [o] } _ hl h2
  | @other n p ops hn _ ih =>
    obtain ⟨s1, h1, h2⟩ := execs_ok_cons h
    exact ih _ _ (exec_line R s s1 n hn h1 l hl) h2

/-- A page begins on the line that the specification says. -/
theorem line_start (s : St) (h : s.text = {}) : AtLine s ⟨fun p => p, 0⟩ := by
  refine ⟨fun p => ?_, ?_⟩ <;> rw [h]
  · exact apply_id p
  · simp

/-- `'` is `T*` followed by `Tj`. -/
theorem quote_is (R : Resolver) (s : St) (o : Obj) (ho : Operand o) : execs R [o, operator "'"] s = execs R [operator "T*", o, operator "Tj"] s := by
  have h1 : ∀ a ∈ [o], Operand a := by simpa using ho
  rw [show [o, operator "'"] = [o] ++ [operator "'"] from rfl, exec_op R s [o] "'" opQuote h1 rfl,
    show [operator "T*", o, operator "Tj"] = ([] ++ [operator "T*"]) ++ ([o] ++ [operator "Tj"]) from rfl, execs_append,
    exec_op R s [] "T*" opNextLine (by simp) rfl]
  simp only [opNextLine]
  rw [exec_op R (nextLine s) [o] "Tj" opShow h1 rfl]
  rfl

/-- `"` sets the spacings and shows the string, but does not advance a line: it is `Tw`, `Tc`, `Tj`. -/
theorem double_quote_counterexample (R : Resolver) (s s' : St) (w c o : Obj) (hw : Operand w) (hc : Operand c) (ho : Operand o) :
    execs R [w, c, o, operator "\""] s = execs R [w, operator "Tw", c, operator "Tc", o, operator "Tj"] s ∧
    (execs R [w, c, o, operator "\""] s = .ok s' → s'.text.matrix = s.text.matrix ∧ s'.text.linematrix = s.text.linematrix) := by
  have h3 : ∀ a ∈ [w, c, o], Operand a := by simp [hw, hc, ho]
  have e : execs R [w, c, o, operator "\""] s = showText [o] { s with text := { s.text with wordspace := w, charspace := c } } :=
    exec_op R s [w, c, o] "\"" opDoubleQuote h3 rfl
  constructor
  · rw [e, show [w, operator "Tw", c, operator "Tc", o, operator "Tj"] = ([w] ++ [operator "Tw"]) ++ (([c] ++ [operator "Tc"]) ++ ([o] ++ [operator "Tj"])) from rfl,
      execs_append, exec_op R s [w] "Tw" _ (by simpa using hw) rfl]
    simp only [setT]
    rw [execs_append, exec_op R _ [c] "Tc" _ (by simpa using hc) rfl]
    simp only [setT]
    rw [exec_op R _ [o] "Tj" _ (by simpa using ho) rfl]
    rfl
  · intro h
    rw [e] at h
    have := showText_keeps (proj := St.text) (fun _ _ _ => rfl) h
    rw [this]
    exact ⟨rfl, rfl⟩

example : Moves [operator "BT", .int 7, .int 1, operator "Td", .name [70], .int 9, operator "Tf", .str [65], operator "Tj", .str [66], operator "'"]
    [.BT, .Td 7 1, .Tstar] :=
  .op (op := .BT) (as := []) rfl (.op (op := .Td 7 1) (as := [.int 7, .int 1]) (by simp [LineOp.numbers, Obj.num?])
    (.operand (by simp [Operand]) (.operand (by simp [Operand]) (.other (by decide) (.operand (by simp [Operand]) (.other (by decide)
      (.quote (by simp [Operand]) .nil)))))))

end Pdf
