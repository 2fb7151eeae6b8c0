import Verif.Proofs.ContentParser
/-! Inline image data and the content parser, without buffers. -/

namespace Pdf

/-- The next value of `i`, for `i = 0` too. -/
def eiNext (target : Bytes) (i : Nat) (c : UInt8) : Nat :=
  if i = 0 then (if c = target.headD 0 then 1 else 0) else inlineNext target i c

abbrev ScanRes := Except PyErr (Bytes × TStream Ann)

def scanK (target : Bytes) (found : Nat → Bytes → TStream Ann) (k : Nat → Bytes → ScanRes) (i : Nat) (acc : Bytes) (p : Nat) : Bytes → ScanRes
  | [] => if target.length < i then .ok (acc, found p []) else k i acc
  | c :: cs => if target.length < i then .ok (acc, found p (c :: cs)) else scanK target found k (eiNext target i c) (acc ++ [c]) (p + 1) cs

def scanNext (target : Bytes) : List Bytes → Nat → Bytes → ScanRes
  | [], _, _ => .error .psEOF
  | x :: rest, i, acc => scanK target (lexFrom x rest {}) (scanNext target rest) i acc 0 x

def scanFrom (target : Bytes) (d : Bytes) (rest : List Bytes) (i : Nat) (acc : Bytes) (p : Nat) (w : Bytes) : ScanRes :=
  scanK target (lexFrom d rest {}) (scanNext target rest) i acc p w

theorem scanFrom_found {target d rest i acc p w} (h : target.length < i) : scanFrom target d rest i acc p w = .ok (acc, lexFrom d rest {} p w) := by
  unfold scanFrom
  cases w with
  | nil => exact if_pos h
  | cons c cs => exact if_pos h

theorem scanFrom_nil {target d rest i acc p} (h : i ≤ target.length) : scanFrom target d rest i acc p [] = scanNext target rest i acc :=
  if_neg (by omega)

theorem scanFrom_cons {target d rest i acc p c cs} (h : i ≤ target.length) :
    scanFrom target d rest i acc p (c :: cs) = scanFrom target d rest (eiNext target i c) (acc ++ [c]) (p + 1) cs :=
  if_neg (by omega)

theorem scanFrom_skip {target d rest acc p u w} (hu : target.headD 0 ∉ u) :
    scanFrom target d rest 0 acc p (u ++ w) = scanFrom target d rest 0 (acc ++ u) (p + u.length) w := by
  induction u generalizing acc p with
  | nil => simp
  | cons c cs ih =>
    simp only [List.mem_cons, not_or] at hu
    rw [List.cons_append, scanFrom_cons (by omega), show eiNext target 0 c = 0 from (if_pos rfl).trans (if_neg (Ne.symm hu.1)), ih hu.2]
    simp [Nat.add_assoc, Nat.add_comm 1]

def ScanOk (r : Except PyErr (Bytes × CSt)) (s : ScanRes) : Prop :=
  match r with
  | .ok (data, cs) => cs.Inv ∧ s = .ok (data, cs.str)
  | .error e => s = .error e

theorem inlineLoop_spec {b : Nat} (hb : 0 < b) (target : Bytes) (ht0 : target ≠ []) (fuel : Nat) (cs : CSt) (hi : cs.Inv)
    (ht : cs.ps.toks = []) (hl : cs.ps.lex = {}) (i : Nat) (acc : Bytes) (hfuel : cs.unread.length + 2 ≤ fuel)
    (hop : target.length < i → cs.opened = true) :
    ScanOk (cs.inlineLoop b target fuel i acc)
      (cs.view (fun d rest p w => scanFrom target d rest i acc p w) (fun s => scanNext target s i acc)) := by
  induction fuel generalizing cs i acc with
  | zero => omega
  | succ fuel ih =>
    unfold CSt.inlineLoop
    by_cases hlt : target.length < i
    · rw [if_pos hlt]
      refine ⟨hi, ?_⟩
      simp [CSt.view, hop hlt, scanFrom_found hlt, CSt.str, ht, hl]
    · rw [if_neg hlt]
      have hle : i ≤ target.length := by omega
      have hf := cfillbuf_spec hb cs hi ht
      obtain ⟨v1, v2⟩ := hf.view (fun d rest p w => scanFrom target d rest i acc p w) (fun s => scanNext target s i acc)
        (fun _ _ _ => scanFrom_nil hle) (fun _ _ => rfl)
      cases hfb : cs.fillbuf b with
      | mk cs1 e =>
      rw [hfb] at hf v1 v2
      dsimp only at hf v1 v2
      cases e with
      | true => exact v2 rfl
      | false =>
        dsimp only
        rw [← v1]
        have ho := hf.opened rfl
        have hmore := hf.more rfl
        have hps : cs1.ps.Inv := by have := hf.inv; simpa [CSt.Inv, ho] using this
        have ht1 : cs1.ps.toks = [] := hf.toks.trans ht
        have hl1 : cs1.ps.lex = {} := hf.lex.trans hl
        have hlen := hf.len
        -- reading `n` bytes
        have adv : ∀ n acc' i', 0 < n → n ≤ cs1.ps.buf.length - cs1.ps.charpos →
            (∀ d rest p w, scanFrom target d rest i acc p (cs1.ps.buf.drop cs1.ps.charpos ++ w) =
              scanFrom target d rest i' acc' (p + n) (cs1.ps.buf.drop (cs1.ps.charpos + n) ++ w)) →
            ScanOk ((cs1.advance n).inlineLoop b target fuel i' acc')
              (cs1.view (fun d rest p w => scanFrom target d rest i acc p w) (fun s => scanNext target s i acc)) := by
          intro n acc' i' hn0 hn heq
          have := ih (cs1.advance n) (by simpa [CSt.Inv, CSt.advance, ho, PSt.Inv] using hps) ht1 hl1 i' acc' ?_ (fun _ => ho)
          · have hv : (cs1.advance n).view (fun d rest p w => scanFrom target d rest i' acc' p w) (fun s => scanNext target s i' acc') =
                cs1.view (fun d rest p w => scanFrom target d rest i acc p w) (fun s => scanNext target s i acc) := by
              simp only [CSt.view, CSt.advance, ho, if_true]
              rw [show cs1.ps.unread = cs1.ps.buf.drop cs1.ps.charpos ++ cs1.ps.data.drop cs1.ps.fpos from rfl, heq]
              congr 1
              simp only [PSt.rpos, PSt.Inv] at *; omega
            rw [hv] at this
            exact this
          · simp only [CSt.unread, CSt.advance, ho, if_true, List.length_append, List.length_drop] at hlen hfuel ⊢
            omega
        have hwne : cs1.ps.buf.drop cs1.ps.charpos ≠ [] := by
          intro h; have := congrArg List.length h; rw [List.length_drop] at this; simp at this; omega
        have hwl : (cs1.ps.buf.drop cs1.ps.charpos).length = cs1.ps.buf.length - cs1.ps.charpos := List.length_drop
        have hdd : ∀ n, cs1.ps.buf.drop (cs1.ps.charpos + n) = (cs1.ps.buf.drop cs1.ps.charpos).drop n := fun n => by rw [List.drop_drop]
        generalize hw : cs1.ps.buf.drop cs1.ps.charpos = w at *
        by_cases hi0 : i = 0
        · subst hi0
          rw [if_pos rfl]
          cases hj : w.idxOf? (target.headD 0) with
          | none =>
            dsimp only
            have hnm : target.headD 0 ∉ w := by simpa using hj
            refine adv w.length _ _ (List.length_pos_iff.mpr hwne) (by omega) fun d rest p w' => ?_
            rw [hdd, List.drop_length, List.nil_append, scanFrom_skip hnm]
          | some j =>
            dsimp only
            obtain ⟨hjl, hj1, hj2⟩ := List.findIdx?_eq_some_iff_getElem.mp hj
            have hsplit : w = w.take j ++ target.headD 0 :: w.drop (j + 1) := by
              have h3 : w[j] = target.headD 0 := by simpa using hj1
              rw [← h3, ← List.drop_eq_getElem_cons hjl, List.take_append_drop]
            have hnm : target.headD 0 ∉ w.take j := by
              intro hm
              obtain ⟨n, hn, he⟩ := List.mem_take_iff_getElem.mp hm
              have := hj2 n (by omega)
              simp [he] at this
            refine adv (j + 1) _ _ (by omega) (by omega) fun d rest p w' => ?_
            conv => lhs; rw [hsplit]
            rw [List.append_assoc, scanFrom_skip hnm, List.cons_append, scanFrom_cons (by omega), hdd]
            rw [show eiNext target 0 (target.headD 0) = 1 by simp [eiNext], List.length_take, Nat.min_eq_left (by omega)]
            rw [show acc ++ w.take (j + 1) = acc ++ w.take j ++ [target.headD 0] by
              rw [List.take_add_one, List.getElem?_eq_getElem hjl]
              have h3 : w[j] = target.headD 0 := by simpa using hj1
              simp [h3]]
            rfl
        · rw [if_neg hi0]
          cases w with
          | nil => exact absurd rfl hwne
          | cons c r =>
            dsimp only
            refine adv 1 _ _ (by omega) (by simp at hwl; omega) fun d rest p w' => ?_
            rw [List.cons_append, scanFrom_cons hle, hdd]
            simp [eiNext, hi0]

/-- `get_inline_data`. -/
def getInlineA (d : Bytes) (rest : List Bytes) (pos : Nat) : ScanRes :=
  match scanFrom kwEI d rest 0 [] pos (d.drop pos) with
  | .error e => .error e
  | .ok (data, s) => .ok (subEol (data.take (data.length - (kwEI.length + 1))), s)

theorem getInline_spec {b : Nat} (hb : 0 < b) (cs : CSt) (ho : cs.opened = true) (pos : Nat) :
    ScanOk (cs.getInline b pos) (getInlineA cs.ps.data cs.streams pos) := by
  unfold CSt.getInline CSt.seek CSt.fillfp
  rw [if_pos ho]
  dsimp only
  have h := inlineLoop_spec hb kwEI (by decide) _ { cs with ps := PSt.seek cs.ps.data pos }
    (by simpa [CSt.Inv, ho] using inv_seek _ _) rfl rfl 0 [] (Nat.le_refl _) (by simp)
  have hv : CSt.view { cs with ps := PSt.seek cs.ps.data pos } (fun d rest p w => scanFrom kwEI d rest 0 [] p w) (fun s => scanNext kwEI s 0 []) =
      scanFrom kwEI cs.ps.data cs.streams 0 [] pos (cs.ps.data.drop pos) := by
    simp [CSt.view, ho, PSt.seek, PSt.rpos, PSt.unread]
  rw [hv] at h
  unfold getInlineA
  cases hr : CSt.inlineLoop b kwEI (CSt.unread { cs with ps := PSt.seek cs.ps.data pos } |>.length |> (· + 2))
      { cs with ps := PSt.seek cs.ps.data pos } 0 [] with
  | error e => rw [hr] at h; simp only [ScanOk] at h; rw [h]; rfl
  | ok q =>
    obtain ⟨data, cs'⟩ := q
    rw [hr] at h
    obtain ⟨h1, h2⟩ := h
    rw [h2]
    exact ⟨h1, rfl⟩

/-- `ID`. -/
def idA (s : TStream Ann) (st : StackSt) (pos : Nat) (d : Bytes) (rest : List Bytes) : Except PyErr (TStream Ann × StackSt) :=
  match st.endType .inline with
  | .error e => if e = .psTypeError then .ok (s, st) else .error e
  | .ok ((_, objs), st) =>
    if objs.length % 2 ≠ 0 then .ok (s, st)
    else match inlineDict [] objs with
      | .error e => .error e
      | .ok dict =>
        match getInlineA d rest (pos + 3) with
        | .error e => .error e
        | .ok (data, s) => .ok (s, (StackSt.push {} (pos + 3, .stream dict data)).push (pos + 3, .kw kwEI))

def settleA : Except PyErr (TStream Ann × StackSt) → Except PyErr (TStream Ann × StackSt)
  | .ok (s, st) => if st.context = [] then .ok (s, st.flushAll) else .ok (s, st)
  | .error e => .error e

def stepA (s : TStream Ann) (st : StackSt) (t : Ann) : Except PyErr (TStream Ann × StackSt) :=
  if t.1.2 = .kw kwID then settleA (idA s st t.1.1 t.2.1 t.2.2)
  else match st.feed inlineHooks t.1.1 t.1.2 with
    | .ok st => .ok (s, st)
    | .error e => .error e

def nextobjA : (fuel : Nat) → TStream Ann → StackSt → Except PyErr (Obj × TStream Ann × StackSt)
  | 0, _, _ => .error .recursion
  | fuel + 1, s, st =>
    match st.results with
    | r :: rs => .ok (r.2, s, { st with results := rs })
    | [] =>
      match s with
      | ([], e) => .error e
      | (t :: ts, e) =>
        match stepA (ts, e) st t with
        | .ok (s, st) => nextobjA fuel s st
        | .error e => .error e

def objectsA (fuel : Nat) : Nat → TStream Ann → StackSt → List Obj × Option PyErr
  | 0, _, _ => ([], none)
  | n + 1, s, st =>
    match nextobjA fuel s st with
    | .error e => ([], some e)
    | .ok (o, s, st) => let q := objectsA fuel n s st; (o :: q.1, q.2)

def StepOk (r : Except PyErr (CSt × StackSt)) (a : Except PyErr (TStream Ann × StackSt)) : Prop :=
  match r with
  | .ok (cs, st) => cs.Inv ∧ a = .ok (cs.str, st)
  | .error e => a = .error e

theorem cstep_spec {b : Nat} (hb : 0 < b) (cs : CSt) (hi : cs.Inv) (ho : cs.opened = true) (st : StackSt) (pos : Nat) (tok : Tok) :
    StepOk (cs.step b st pos tok) (stepA cs.str st ((pos, tok), cs.ps.data, cs.streams)) := by
  unfold CSt.step stepA
  dsimp only
  split
  · have hid : StepOk (cs.idKw b st pos) (idA cs.str st pos cs.ps.data cs.streams) := by
      unfold CSt.idKw idA
      cases st.endType .inline with
      | error e =>
        dsimp only
        split
        · exact ⟨hi, rfl⟩
        · rfl
      | ok q =>
        obtain ⟨⟨_, objs⟩, st1⟩ := q
        dsimp only
        split
        · exact ⟨hi, rfl⟩
        · cases inlineDict [] objs with
          | error e => rfl
          | ok d =>
            dsimp only
            have := getInline_spec hb cs ho (pos + 3)
            cases hg : cs.getInline b (pos + 3) with
            | error e => rw [hg] at this; simp only [ScanOk] at this; rw [this]; rfl
            | ok q =>
              obtain ⟨data, cs'⟩ := q
              rw [hg] at this
              obtain ⟨h1, h2⟩ := this
              rw [h2]
              exact ⟨h1, rfl⟩
    cases hk : cs.idKw b st pos with
    | error e => rw [hk] at hid; simp only [StepOk] at hid; rw [hid]; rfl
    | ok q =>
      obtain ⟨cs', st'⟩ := q
      rw [hk] at hid
      obtain ⟨h1, h2⟩ := hid
      rw [h2]
      unfold settleC settleA
      dsimp only
      split
      · exact ⟨h1, rfl⟩
      · exact ⟨h1, rfl⟩
  · cases st.feed inlineHooks pos tok with
    | error e => rfl
    | ok st' => exact ⟨hi, rfl⟩

theorem cnextobject_spec {b : Nat} (hb : 0 < b) (fuel : Nat) (cs : CSt) (hi : cs.Inv) (st : StackSt) :
    match cs.nextobject b fuel st with
    | .ok (o, cs', st') => cs'.Inv ∧ nextobjA fuel cs.str st = .ok (o, cs'.str, st')
    | .error e => nextobjA fuel cs.str st = .error e := by
  induction fuel generalizing cs st with
  | zero => rfl
  | succ fuel ih =>
    unfold CSt.nextobject nextobjA
    cases st.results with
    | cons r rs => exact ⟨hi, rfl⟩
    | nil =>
      dsimp only
      have h := cnexttoken_spec hb cs hi
      cases hn : cs.nexttoken b with
      | mk r cs' =>
      rw [hn] at h
      rcases hs : cs.str with ⟨_ | ⟨⟨t, d, rest⟩, ts⟩, e⟩
      · rw [hs] at h
        simp only [CNextOk] at h
        subst h
        rfl
      · rw [hs] at h
        obtain ⟨h1, h2, h3, h4, h5, h6⟩ := h
        dsimp only at h1 h2 h3 h4 h5 h6
        subst h1
        obtain ⟨pos, tok⟩ := t
        dsimp only
        have := cstep_spec hb cs' h2 h3 st pos tok
        rw [h4, h5, h6] at this
        cases hst : cs'.step b st pos tok with
        | error e => rw [hst] at this; simp only [StepOk] at this; rw [this]
        | ok q =>
          obtain ⟨cs2, st2⟩ := q
          rw [hst] at this
          obtain ⟨a1, a2⟩ := this
          rw [a2]
          exact ih cs2 a1 st2

theorem cobjects_spec {b : Nat} (hb : 0 < b) (fuel n : Nat) (cs : CSt) (hi : cs.Inv) (st : StackSt) :
    cs.objects b fuel n st = objectsA fuel n cs.str st := by
  induction n generalizing cs st with
  | zero => rfl
  | succ n ih =>
    unfold CSt.objects objectsA
    have := cnextobject_spec hb fuel cs hi st
    cases hr : cs.nextobject b fuel st with
    | error e => rw [hr] at this; dsimp only at this; rw [this]
    | ok q =>
      obtain ⟨o, cs', st'⟩ := q
      rw [hr] at this
      obtain ⟨h1, h2⟩ := this
      rw [h2]
      dsimp only
      rw [ih cs' h1 st']

/-- What the content parser returns depends on the bytes of the streams only, not on the buffer. -/
theorem contentObjects_eq {b : Nat} (hb : 0 < b) (fuel : Nat) (d : Bytes) (rest : List Bytes) (n : Nat) :
    contentObjects b fuel (d :: rest) n = objectsA fuel n (lexNext (d :: rest) {}) {} := by
  unfold contentObjects CSt.seek CSt.fillfp
  dsimp only [Bool.false_eq_true, if_false]
  rw [if_neg (by simp)]
  dsimp only
  rw [cobjects_spec hb]
  · simp [CSt.str, PSt.seek, PSt.rpos, PSt.unread, lexNext, lexFrom]
  · simp [CSt.Inv, PSt.Inv, PSt.seek]

end Pdf
