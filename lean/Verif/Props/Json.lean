import Verif.Spec.Json
import Mathlib.Tactic.Linarith
/-! Property C49: the JSON writer. -/

namespace Pdf

open Spec (Ws Value Elems Members JsonStr WritesVal WritesArr WritesObj Json cp)

theorem ws_append {a b : PyStr} (ha : Ws a) (hb : Ws b) : Ws (a ++ b) := by
  intro c hc
  rcases List.mem_append.1 hc with h | h
  · exact ha c h
  · exact hb c h

theorem ws_indent (n : Nat) : Ws ([0x0a] ++ jIndent n) := by
  intro c hc
  have h : c = 0x0a ∨ c = 0x20 := by
    rcases List.mem_append.1 hc with h | h
    · exact .inl (List.mem_singleton.1 h)
    · exact .inr (List.eq_of_mem_replicate h)
  rcases h with rfl | rfl <;> decide

theorem ws_space : Ws [0x20] := by
  intro c hc; rw [List.mem_singleton.1 hc]; decide

theorem ws_nil : Ws [] := by intro c hc; cases hc

/-- A clean text, with its quotes escaped, is read back. -/
theorem strBody_escaped (s : PyStr) (h : Spec.Clean s) : JsonStr (replaceChar 0x22 [0x5c, 0x22] s) s := by
  induction s with
  | nil => exact .nil
  | cons c cs ih =>
    have hc := h c (by simp)
    have ih := ih (fun c h' => h c (by simp [h']))
    show JsonStr ((if c = 0x22 then [0x5c, 0x22] else [c]) ++ replaceChar 0x22 [0x5c, 0x22] cs) _
    split
    · next e => subst e; exact .escape (by decide) ih
    · next e => exact .plain hc.1 e hc.2 ih

theorem strBody_plain (s : PyStr) (h : Spec.Clean s) (hq : '"'.toNat ∉ s) : JsonStr s s := by
  induction s with
  | nil => exact .nil
  | cons c cs ih =>
    have hc := h c (by simp)
    refine .plain hc.1 ?_ hc.2 (ih (fun c h' => h c (by simp [h'])) (fun h' => hq (List.mem_cons_of_mem _ h')))
    rintro rfl; exact hq List.mem_cons_self

theorem WritesObj_scalar_skip (level : Nat) (keys : List PyStr) (key : PyStr) (v : JVal) (m : JObj) (hk : key ∈ keys) (hv : Spec.Scalar v) :
    jWriteObj level keys (.cons key v m) = jWriteObj level keys m := by
  cases v with
  | num t => rw [jWriteObj]; simp [jKey, hk]
  | str t => rw [jWriteObj]; simp [jKey, hk]
  | placed t => rw [jWriteObj]; simp [jKey, hk]
  | arr l => cases hv
  | obj l => cases hv

theorem WritesObj_fresh (level : Nat) (keys : List PyStr) (key : PyStr) (v : JVal) (m : JObj) (hk : key ∉ keys) :
    jWriteObj level keys (.cons key v m) =
      jPrefix keys.isEmpty ++ (jIndent level ++ [0x22] ++ key ++ [0x22, 0x3a, 0x20] ++ jWrite level v) ++ jWriteObj level (key :: keys) m := by
  cases v <;> rw [jWriteObj] <;> simp [jKey, hk]

mutual
theorem writes_value {v : JVal} {j : Json} (h : WritesVal v j) (level : Nat) : Value (jWrite level v) j := by
  cases h with
  | num h => rw [jWrite]; exact .num h
  | str h =>
    rw [jWrite]
    exact .str (strBody_escaped _ h)
  | placed h => rw [jWrite]; exact h
  | arr h =>
    rename_i l js
    rw [jWrite]
    cases l with
    | nil =>
      cases h
      rw [jWriteArr]
      exact Value.arrEmpty (w := [0x0a] ++ jIndent level) (ws_indent level)
    | cons v l =>
      have := writes_elems h (level + 1) true ([0x0a] ++ jIndent level) (ws_indent level)
      have e : [0x5b] ++ jWriteArr (level + 1) true (.cons v l) ++ [0x0a] ++ jIndent level ++ [0x5d] =
          cp "[" ++ (jWriteArr (level + 1) true (.cons v l) ++ ([0x0a] ++ jIndent level)) ++ cp "]" := by
        simp [cp]
      rw [e]
      refine .arr ?_
      rcases this with ⟨rfl, h'⟩ | ⟨t, hj, h'⟩
      · cases h
      · rw [h']; exact hj
  | obj h =>
    rename_i m js
    rw [jWrite]
    have := writes_members h (level + 1) ([0x0a] ++ jIndent level) (ws_indent level)
    have e : [0x7b] ++ jWriteObj (level + 1) [] m ++ [0x0a] ++ jIndent level ++ [0x7d] =
        cp "{" ++ (jWriteObj (level + 1) [] m ++ ([0x0a] ++ jIndent level)) ++ cp "}" := by
      simp [cp]
    rw [e]
    rcases this with ⟨rfl, h'⟩ | ⟨t, hj, h'⟩
    · rw [h']; exact .objEmpty (ws_indent level)
    · rw [h']; exact .obj hj
theorem writes_elems {l : JArr} {js : List Json} (h : WritesArr l js) (level : Nat) (first : Bool) (w : PyStr) (hw : Ws w) :
    (js = [] ∧ jWriteArr level first l ++ w = w) ∨
    (∃ t, Elems t js ∧ jWriteArr level first l ++ w = (if first then [] else cp ",") ++ t) := by
  cases h with
  | nil => exact .inl ⟨rfl, by rw [jWriteArr]; rfl⟩
  | cons hv hl =>
    rename_i v j l js
    right
    have hv := writes_value hv level
    have hl := writes_elems hl level false w hw
    have hp : jPrefix first = (if first then [] else cp ",") ++ [0x0a] := by cases first <;> rfl
    rcases hl with ⟨rfl, h'⟩ | ⟨t, hj, h'⟩
    · refine ⟨_, .one (ws_indent level) hv hw, ?_⟩
      rw [jWriteArr, hp, List.append_assoc, h']
      simp [List.append_assoc]
    · refine ⟨_, .more (ws_indent level) hv ws_nil hj, ?_⟩
      rw [jWriteArr, hp, List.append_assoc, h']
      simp [List.append_assoc]
theorem writes_members {m : JObj} {js : List (PyStr × Json)} {keys : List PyStr} (h : WritesObj keys m js) (level : Nat) (w : PyStr)
    (hw : Ws w) :
    (js = [] ∧ jWriteObj level keys m ++ w = w) ∨
    (∃ t, Members t js ∧ jWriteObj level keys m ++ w = (if keys.isEmpty then [] else cp ",") ++ t) := by
  cases h with
  | nil => exact .inl ⟨rfl, by rw [jWriteObj]; rfl⟩
  | cons hk hc hq hv hm =>
    rename_i key v j m js
    right
    have hv := writes_value hv level
    have hm := writes_members hm level w hw
    have hp : jPrefix keys.isEmpty = (if keys.isEmpty then [] else cp ",") ++ [0x0a] := by cases keys.isEmpty <;> rfl
    rcases hm with ⟨rfl, h'⟩ | ⟨t, hj, h'⟩
    · refine ⟨_, .one (ws_indent level) (strBody_plain key hc hq) ws_nil ws_space hv hw, ?_⟩
      rw [WritesObj_fresh _ _ _ _ _ hk, hp, List.append_assoc, h']
      simp [List.append_assoc, cp]
    · refine ⟨_, .more (ws_indent level) (strBody_plain key hc hq) ws_nil ws_space hv ws_nil hj, ?_⟩
      rw [WritesObj_fresh _ _ _ _ _ hk, hp, List.append_assoc, h']
      simp [List.append_assoc, cp]
  | again hk hv hm =>
    rename_i key v m
    rw [WritesObj_scalar_skip _ _ _ _ _ hk hv]
    exact writes_members hm level w hw
end

/-- **C49 (partial).** The file written by any tree of calls is a JSON document that stands for the tree of the values written, for all
texts without backslashes and control characters. -/
theorem json_writer_partial (calls : JObj) (js : List (PyStr × Json)) (h : WritesObj [] calls js) : Spec.JsonText (jFile calls) (.obj js) :=
  ⟨[], jFile calls, [], by simp, ws_nil, ws_nil, writes_value (.obj h) 0⟩

/-! ### A text stands for at most one value -/

/-- The characters of numbers and literals. -/
def wordChar (c : Nat) : Bool := decide (48 ≤ c ∧ c ≤ 57) || decide (97 ≤ c ∧ c ≤ 122) || c == 0x2b || c == 0x2d || c == 0x2e || c == 0x45

/-- The characters that may follow a value: white space, comma and closing brackets. -/
def Follow (r : PyStr) : Prop := ∀ c, r.head? = some c → c ∈ cp " \t\n\r,]}"

theorem follow_word {r : PyStr} (h : Follow r) : ∀ c, r.head? = some c → wordChar c = false := by
  intro c hc
  have : ∀ c ∈ cp " \t\n\r,]}", wordChar c = false := by decide
  exact this c (h c hc)

theorem run_unique {p : Nat → Bool} {a b r s : PyStr} (ha : ∀ c ∈ a, p c = true) (hb : ∀ c ∈ b, p c = true)
    (hr : ∀ c, r.head? = some c → p c = false) (hs : ∀ c, s.head? = some c → p c = false) (h : a ++ r = b ++ s) : a = b ∧ r = s := by
  induction a generalizing b with
  | nil =>
    cases b with
    | nil => exact ⟨rfl, h⟩
    | cons y ys =>
      subst h
      have := hr y rfl
      rw [hb y (by simp)] at this; cases this
  | cons x xs ih =>
    cases b with
    | nil =>
      subst h
      have := hs x rfl
      rw [ha x (by simp)] at this; cases this
    | cons y ys =>
      simp only [List.cons_append, List.cons.injEq] at h
      obtain ⟨rfl, h⟩ := h
      obtain ⟨rfl, h2⟩ := ih (fun c hc => ha c (by simp [hc])) (fun c hc => hb c (by simp [hc])) h
      exact ⟨rfl, h2⟩

theorem digits_word {t : PyStr} (h : Spec.Digits t) : ∀ c ∈ t, wordChar c = true := by
  intro c hc
  have := h.2 c hc
  unfold wordChar
  have e : (48 ≤ c ∧ c ≤ 57) := this
  simp [e]

theorem number_word {t : PyStr} (h : Spec.Number t) : ∀ c ∈ t, wordChar c = true := by
  obtain ⟨sign, int, frac, exp, rfl, h1, h2, h3, h4⟩ := h
  intro c hc
  simp only [List.mem_append] at hc
  rcases hc with ((hc | hc) | hc) | hc
  · rcases h1 with rfl | rfl
    · cases hc
    · have : ∀ c ∈ cp "-", wordChar c = true := by decide
      exact this c hc
  · exact digits_word h2.1 c hc
  · rcases h3 with rfl | ⟨d, hd, rfl⟩
    · cases hc
    · rcases List.mem_append.1 hc with hc | hc
      · have : ∀ c ∈ cp ".", wordChar c = true := by decide
        exact this c hc
      · exact digits_word hd c hc
  · rcases h4 with rfl | ⟨e, s, d, he, hs, hd, rfl⟩
    · cases hc
    · simp only [List.mem_append] at hc
      rcases hc with (hc | hc) | hc
      · have : ∀ c ∈ cp "eE", wordChar c = true := by decide
        apply this
        rcases he with rfl | rfl
        · exact List.mem_cons.2 (.inl (List.mem_singleton.1 hc))
        · exact List.mem_cons.2 (.inr hc)
      · have : ∀ c ∈ cp "+-", wordChar c = true := by decide
        apply this
        rcases hs with rfl | rfl | rfl
        · cases hc
        · exact List.mem_cons.2 (.inl (List.mem_singleton.1 hc))
        · exact List.mem_cons.2 (.inr hc)
      · exact digits_word hd c hc

theorem number_head {t : PyStr} (h : Spec.Number t) : ∃ c r, t = c :: r ∧ (c = 0x2d ∨ (48 ≤ c ∧ c ≤ 57)) := by
  obtain ⟨sign, int, frac, exp, rfl, h1, h2, h3, h4⟩ := h
  rcases h1 with rfl | rfl
  · obtain ⟨⟨hne, hd⟩, _⟩ := h2
    cases int with
    | nil => exact absurd rfl hne
    | cons c r => exact ⟨c, _, rfl, .inr (hd c (by simp))⟩
  · exact ⟨0x2d, _, rfl, .inl rfl⟩

theorem lit_word {t : PyStr} (h : t ∈ [cp "true", cp "false", cp "null"]) : ∀ c ∈ t, wordChar c = true := by
  have : ∀ t ∈ [cp "true", cp "false", cp "null"], ∀ c ∈ t, wordChar c = true := by decide
  exact this t h

theorem lit_head {t : PyStr} (h : t ∈ [cp "true", cp "false", cp "null"]) : ∃ c r, t = c :: r ∧ (c = 0x74 ∨ c = 0x66 ∨ c = 0x6e) := by
  simp only [List.mem_cons, List.not_mem_nil, or_false] at h
  rcases h with rfl | rfl | rfl
  · exact ⟨_, _, rfl, .inl rfl⟩
  · exact ⟨_, _, rfl, .inr (.inl rfl)⟩
  · exact ⟨_, _, rfl, .inr (.inr rfl)⟩

theorem escape_unique {e c c' : Nat} (h : (e, c) ∈ Spec.escapes) (h' : (e, c') ∈ Spec.escapes) : c = c' := by
  have : ∀ p ∈ Spec.escapes, ∀ q ∈ Spec.escapes, p.1 = q.1 → p.2 = q.2 := by decide
  exact this _ h _ h' rfl

theorem escape_not_u {c : Nat} (h : ('u'.toNat, c) ∈ Spec.escapes) : False := by
  have : ∀ p ∈ Spec.escapes, p.1 ≠ 'u'.toNat := by decide
  exact this _ h rfl

/-- The inside of a string ends at the first quote that is not escaped, and stands for one text. -/
theorem strBody_unique {a x b y r s : PyStr} (h : JsonStr a x) (h' : JsonStr b y) (e : a ++ '"'.toNat :: r = b ++ '"'.toNat :: s) :
    a = b ∧ x = y ∧ r = s := by
  induction h generalizing b y with
  | nil =>
    cases h' with
    | nil => exact ⟨rfl, rfl, (List.cons.inj e).2⟩
    | plain _ h2 => exact absurd (List.cons.inj e).1.symm h2
    | escape h1 => exact absurd (List.cons.inj e).1 (by decide)
    | unicode => exact absurd (List.cons.inj e).1 (by decide)
  | plain h1 h2 h3 _ ih =>
    cases h' with
    | nil => exact absurd (List.cons.inj e).1 h2
    | plain k1 k2 k3 hb =>
      obtain ⟨e1, e2⟩ := List.cons.inj e
      obtain ⟨rfl, rfl, rfl⟩ := ih hb e2
      subst e1; exact ⟨rfl, rfl, rfl⟩
    | escape => exact absurd (List.cons.inj e).1 h3
    | unicode => exact absurd (List.cons.inj e).1 h3
  | escape h1 _ ih =>
    cases h' with
    | nil => exact absurd (List.cons.inj e).1 (by decide)
    | plain k1 k2 k3 hb => exact absurd (List.cons.inj e).1.symm k3
    | escape k1 hb =>
      obtain ⟨e1, e2⟩ := List.cons.inj (List.cons.inj e).2
      subst e1
      obtain ⟨rfl, rfl, rfl⟩ := ih hb e2
      rw [escape_unique h1 k1]; exact ⟨rfl, rfl, rfl⟩
    | unicode =>
      obtain ⟨e1, e2⟩ := List.cons.inj (List.cons.inj e).2
      subst e1; exact absurd h1 escape_not_u
  | unicode h1 h2 h3 h4 _ ih =>
    cases h' with
    | nil => exact absurd (List.cons.inj e).1 (by decide)
    | plain k1 k2 k3 hb => exact absurd (List.cons.inj e).1.symm k3
    | escape k1 hb =>
      obtain ⟨e1, e2⟩ := List.cons.inj (List.cons.inj e).2
      subst e1; exact absurd k1 escape_not_u
    | unicode k1 k2 k3 k4 hb =>
      simp only [List.cons_append, List.cons.injEq] at e
      obtain ⟨-, -, rfl, rfl, rfl, rfl, e⟩ := e
      obtain ⟨rfl, rfl, rfl⟩ := ih hb e
      rw [h1] at k1; rw [h2] at k2; rw [h3] at k3; rw [h4] at k4
      cases k1; cases k2; cases k3; cases k4
      exact ⟨rfl, rfl, rfl⟩

/-- The first characters of the kinds of values. -/
inductive Kind where
  | number | literal | string | array | object
deriving DecidableEq

def kindOf (c : Nat) : Option Kind :=
  if c = 0x2d ∨ (48 ≤ c ∧ c ≤ 57) then some .number
  else if c = 0x74 ∨ c = 0x66 ∨ c = 0x6e then some .literal
  else if c = 0x22 then some .string
  else if c = 0x5b then some .array
  else if c = 0x7b then some .object
  else none

def kindJson : Json → Kind
  | .num _ => .number
  | .lit _ => .literal
  | .str _ => .string
  | .arr _ => .array
  | .obj _ => .object

theorem value_head {t : PyStr} {v : Json} (h : Value t v) : ∃ c r, t = c :: r ∧ kindOf c = some (kindJson v) := by
  cases h with
  | num h =>
    obtain ⟨c, r, e, hc⟩ := number_head h
    exact ⟨c, r, e, by simp [kindOf, hc, kindJson]⟩
  | lit h =>
    obtain ⟨c, r, e, hc⟩ := lit_head h
    refine ⟨c, r, e, ?_⟩
    rcases hc with rfl | rfl | rfl <;> rfl
  | str h => exact ⟨_, _, rfl, rfl⟩
  | arrEmpty h => exact ⟨_, _, rfl, rfl⟩
  | arr h => exact ⟨_, _, rfl, rfl⟩
  | objEmpty h => exact ⟨_, _, rfl, rfl⟩
  | obj h => exact ⟨_, _, rfl, rfl⟩

def isWs (c : Nat) : Bool := c == 0x20 || c == 0x09 || c == 0x0a || c == 0x0d

theorem ws_isWs {w : PyStr} (h : Ws w) : ∀ c ∈ w, isWs c = true := by
  intro c hc
  have : ∀ c ∈ cp " \t\n\r", isWs c = true := by decide
  exact this c (h c hc)

theorem kind_not_ws {c : Nat} {k : Kind} (h : kindOf c = some k) : isWs c = false := by
  by_contra hc
  have : c = 0x20 ∨ c = 0x09 ∨ c = 0x0a ∨ c = 0x0d := by
    simp [isWs] at hc; tauto
  rcases this with rfl | rfl | rfl | rfl <;> cases h

theorem kind_not_bracket {c : Nat} {k : Kind} (h : kindOf c = some k) : c ≠ 0x5d ∧ c ≠ 0x7d ∧ c ≠ 0x2c := by
  refine ⟨?_, ?_, ?_⟩ <;> rintro rfl <;> cases h

theorem value_not_ws {t : PyStr} {v : Json} (h : Value t v) (r : PyStr) : ∀ c, (t ++ r).head? = some c → isWs c = false := by
  obtain ⟨c, r', rfl, hc⟩ := value_head h
  intro c' hc'
  simp only [List.cons_append, List.head?_cons, Option.some.injEq] at hc'
  subst hc'; exact kind_not_ws hc

theorem lead_ws {w w' t t' r r' : PyStr} {v v' : Json} (hw : Ws w) (hw' : Ws w') (h : Value t v) (h' : Value t' v')
    (e : w ++ (t ++ r) = w' ++ (t' ++ r')) : w = w' ∧ t ++ r = t' ++ r' :=
  run_unique (ws_isWs hw) (ws_isWs hw') (value_not_ws h r) (value_not_ws h' r') e

/-- White space before a character that is not white space. -/
theorem lead_char {w w' r r' : PyStr} {c c' : Nat} (hw : Ws w) (hw' : Ws w') (hc : isWs c = false) (hc' : isWs c' = false)
    (e : w ++ c :: r = w' ++ c' :: r') : w = w' ∧ c = c' ∧ r = r' := by
  obtain ⟨h1, h2⟩ := run_unique (ws_isWs hw) (ws_isWs hw') (r := c :: r) (s := c' :: r')
    (by intro x hx; cases hx; exact hc) (by intro x hx; cases hx; exact hc') e
  obtain ⟨h3, h4⟩ := List.cons.inj h2
  exact ⟨h1, h3, h4⟩

theorem follow_ws {w r : PyStr} {c : Nat} (hw : Ws w) (hc : c = 0x2c ∨ c = 0x5d ∨ c = 0x7d) : Follow (w ++ c :: r) := by
  intro x hx
  cases w with
  | nil =>
    cases hx
    rcases hc with rfl | rfl | rfl <;> decide
  | cons y ys =>
    cases hx
    have := hw x (by simp)
    have hh : ∀ x ∈ cp " \t\n\r", x ∈ cp " \t\n\r,]}" := by decide
    exact hh x this

/-- Elements of an array never start with the bracket that closes it. -/
theorem elems_form {t : PyStr} {l : List Json} (h : Elems t l) :
    ∃ w m u v, t = w ++ (m ++ u) ∧ Ws w ∧ Value m v := by
  cases h with
  | one h1 h2 h3 => exact ⟨_, _, _, _, by rw [List.append_assoc], h1, h2⟩
  | more h1 h2 h3 h4 => exact ⟨_, _, _, _, by simp only [List.append_assoc]; rfl, h1, h2⟩

theorem elems_not_empty {t w r s : PyStr} {l : List Json} (h : Elems t l) (hw : Ws w) (e : t ++ 0x5d :: r = w ++ 0x5d :: s) : False := by
  obtain ⟨w', m, u, v, rfl, hw', hm⟩ := elems_form h
  obtain ⟨c, r', rfl, hc⟩ := value_head hm
  simp only [List.append_assoc, List.cons_append] at e
  have := lead_char hw' hw (kind_not_ws hc) (by decide) e
  exact (kind_not_bracket hc).1 this.2.1

theorem members_form {t : PyStr} {l : List (PyStr × Json)} (h : Members t l) : ∃ w u, t = w ++ 0x22 :: u ∧ Ws w := by
  cases h with
  | one h1 => exact ⟨_, _, by simp only [List.append_assoc]; rfl, h1⟩
  | more h1 => exact ⟨_, _, by simp only [List.append_assoc]; rfl, h1⟩

theorem members_not_empty {t w r s : PyStr} {l : List (PyStr × Json)} (h : Members t l) (hw : Ws w)
    (e : t ++ 0x7d :: r = w ++ 0x7d :: s) : False := by
  obtain ⟨w', u, rfl, hw'⟩ := members_form h
  simp only [List.append_assoc, List.cons_append] at e
  have := lead_char hw' hw (by decide) (by decide) e
  exact absurd this.2.1 (by decide)

theorem brackets (a b : Nat) (t r : PyStr) : [a] ++ t ++ [b] ++ r = a :: (t ++ b :: r) := by simp

theorem member_form (w k w2 w3 t w4 r : PyStr) :
    w ++ cp "\"" ++ k ++ cp "\"" ++ w2 ++ cp ":" ++ w3 ++ t ++ w4 ++ r =
      w ++ 0x22 :: (k ++ '"'.toNat :: (w2 ++ 0x3a :: (w3 ++ (t ++ (w4 ++ r))))) := by
  simp [cp]

theorem member_form2 (w k w2 w3 t w4 q r : PyStr) :
    w ++ cp "\"" ++ k ++ cp "\"" ++ w2 ++ cp ":" ++ w3 ++ t ++ w4 ++ cp "," ++ q ++ r =
      w ++ 0x22 :: (k ++ '"'.toNat :: (w2 ++ 0x3a :: (w3 ++ (t ++ (w4 ++ 0x2c :: (q ++ r)))))) := by
  simp [cp]

mutual
theorem value_unique {a b r s : PyStr} {x y : Json} (h : Value a x) (h' : Value b y) (hr : Follow r) (hs : Follow s)
    (e : a ++ r = b ++ s) : x = y ∧ a = b ∧ r = s := by
  have hk : kindJson x = kindJson y := by
    obtain ⟨c, t, rfl, hc⟩ := value_head h
    obtain ⟨c', t', rfl, hc'⟩ := value_head h'
    have := (List.cons.inj e).1
    subst this
    rw [hc] at hc'
    exact Option.some.inj hc'
  cases h with
  | num h =>
    cases h' with
    | num h' =>
      obtain ⟨rfl, rfl⟩ := run_unique (number_word h) (number_word h') (follow_word hr) (follow_word hs) e
      exact ⟨rfl, rfl, rfl⟩
    | lit => cases hk
    | str => cases hk
    | arrEmpty => cases hk
    | arr => cases hk
    | objEmpty => cases hk
    | obj => cases hk
  | lit h =>
    cases h' with
    | lit h' =>
      obtain ⟨rfl, rfl⟩ := run_unique (lit_word h) (lit_word h') (follow_word hr) (follow_word hs) e
      exact ⟨rfl, rfl, rfl⟩
    | num => cases hk
    | str => cases hk
    | arrEmpty => cases hk
    | arr => cases hk
    | objEmpty => cases hk
    | obj => cases hk
  | str h =>
    cases h' with
    | str h' =>
      simp only [show cp "\"" = [0x22] from rfl, brackets] at e
      obtain ⟨rfl, rfl, rfl⟩ := strBody_unique h h' (List.cons.inj e).2
      exact ⟨rfl, rfl, rfl⟩
    | num => cases hk
    | lit => cases hk
    | arrEmpty => cases hk
    | arr => cases hk
    | objEmpty => cases hk
    | obj => cases hk
  | arrEmpty h =>
    cases h' with
    | arrEmpty h' =>
      simp only [show cp "[" = [0x5b] from rfl, show cp "]" = [0x5d] from rfl, brackets] at e
      obtain ⟨rfl, _, rfl⟩ := lead_char h h' (by decide) (by decide) (List.cons.inj e).2
      exact ⟨rfl, rfl, rfl⟩
    | arr h' =>
      simp only [show cp "[" = [0x5b] from rfl, show cp "]" = [0x5d] from rfl, brackets] at e
      exact absurd (List.cons.inj e).2.symm (fun e => elems_not_empty h' h e)
    | num => cases hk
    | lit => cases hk
    | str => cases hk
    | objEmpty => cases hk
    | obj => cases hk
  | arr h =>
    cases h' with
    | arrEmpty h' =>
      simp only [show cp "[" = [0x5b] from rfl, show cp "]" = [0x5d] from rfl, brackets] at e
      exact absurd (List.cons.inj e).2 (fun e => elems_not_empty h h' e)
    | arr h' =>
      simp only [show cp "[" = [0x5b] from rfl, show cp "]" = [0x5d] from rfl, brackets] at e
      obtain ⟨rfl, rfl, rfl⟩ := elems_unique h h' (List.cons.inj e).2
      exact ⟨rfl, rfl, rfl⟩
    | num => cases hk
    | lit => cases hk
    | str => cases hk
    | objEmpty => cases hk
    | obj => cases hk
  | objEmpty h =>
    cases h' with
    | objEmpty h' =>
      simp only [show cp "{" = [0x7b] from rfl, show cp "}" = [0x7d] from rfl, brackets] at e
      obtain ⟨rfl, _, rfl⟩ := lead_char h h' (by decide) (by decide) (List.cons.inj e).2
      exact ⟨rfl, rfl, rfl⟩
    | obj h' =>
      simp only [show cp "{" = [0x7b] from rfl, show cp "}" = [0x7d] from rfl, brackets] at e
      exact absurd (List.cons.inj e).2.symm (fun e => members_not_empty h' h e)
    | num => cases hk
    | lit => cases hk
    | str => cases hk
    | arrEmpty => cases hk
    | arr => cases hk
  | obj h =>
    cases h' with
    | objEmpty h' =>
      simp only [show cp "{" = [0x7b] from rfl, show cp "}" = [0x7d] from rfl, brackets] at e
      exact absurd (List.cons.inj e).2 (fun e => members_not_empty h h' e)
    | obj h' =>
      simp only [show cp "{" = [0x7b] from rfl, show cp "}" = [0x7d] from rfl, brackets] at e
      obtain ⟨rfl, rfl, rfl⟩ := members_unique h h' (List.cons.inj e).2
      exact ⟨rfl, rfl, rfl⟩
    | num => cases hk
    | lit => cases hk
    | str => cases hk
    | arrEmpty => cases hk
    | arr => cases hk
theorem elems_unique {a b r s : PyStr} {x y : List Json} (h : Elems a x) (h' : Elems b y) (e : a ++ 0x5d :: r = b ++ 0x5d :: s) :
    x = y ∧ a = b ∧ r = s := by
  have hcomma : cp "," = [0x2c] := rfl
  cases h with
  | one w1 v w2 =>
    cases h' with
    | one w1' v' w2' =>
      simp only [List.append_assoc] at e
      obtain ⟨rfl, e1⟩ := lead_ws w1 w1' v v' e
      obtain ⟨rfl, rfl, e2⟩ := value_unique v v' (follow_ws w2 (.inr (.inl rfl))) (follow_ws w2' (.inr (.inl rfl))) e1
      obtain ⟨rfl, _, rfl⟩ := lead_char w2 w2' (by decide) (by decide) e2
      exact ⟨rfl, rfl, rfl⟩
    | more w1' v' w2' t' =>
      simp only [List.append_assoc, hcomma, List.cons_append, List.nil_append] at e
      obtain ⟨rfl, e1⟩ := lead_ws w1 w1' v v' e
      obtain ⟨rfl, rfl, e2⟩ := value_unique v v' (follow_ws w2 (.inr (.inl rfl))) (follow_ws w2' (.inl rfl)) e1
      have := lead_char w2 w2' (by decide) (by decide) e2
      exact absurd this.2.1 (by decide)
  | more w1 v w2 t =>
    cases h' with
    | one w1' v' w2' =>
      simp only [List.append_assoc, hcomma, List.cons_append, List.nil_append] at e
      obtain ⟨rfl, e1⟩ := lead_ws w1 w1' v v' e
      obtain ⟨rfl, rfl, e2⟩ := value_unique v v' (follow_ws w2 (.inl rfl)) (follow_ws w2' (.inr (.inl rfl))) e1
      have := lead_char w2 w2' (by decide) (by decide) e2
      exact absurd this.2.1 (by decide)
    | more w1' v' w2' t' =>
      simp only [List.append_assoc, hcomma, List.cons_append, List.nil_append] at e
      obtain ⟨rfl, e1⟩ := lead_ws w1 w1' v v' e
      obtain ⟨rfl, rfl, e2⟩ := value_unique v v' (follow_ws w2 (.inl rfl)) (follow_ws w2' (.inl rfl)) e1
      obtain ⟨rfl, _, e3⟩ := lead_char w2 w2' (by decide) (by decide) e2
      obtain ⟨rfl, rfl, rfl⟩ := elems_unique t t' e3
      exact ⟨rfl, rfl, rfl⟩
theorem members_unique {a b r s : PyStr} {x y : List (PyStr × Json)} (h : Members a x) (h' : Members b y)
    (e : a ++ 0x7d :: r = b ++ 0x7d :: s) : x = y ∧ a = b ∧ r = s := by
  have hcomma : cp "," = [0x2c] := rfl
  cases h with
  | one w1 k w2 w3 v w4 =>
    cases h' with
    | one w1' k' w2' w3' v' w4' =>
      simp only [member_form] at e
      obtain ⟨rfl, _, e1⟩ := lead_char w1 w1' (by decide) (by decide) e
      obtain ⟨rfl, rfl, e2⟩ := strBody_unique k k' e1
      obtain ⟨rfl, _, e3⟩ := lead_char w2 w2' (by decide) (by decide) e2
      obtain ⟨rfl, e4⟩ := lead_ws w3 w3' v v' e3
      obtain ⟨rfl, rfl, e5⟩ := value_unique v v' (follow_ws w4 (.inr (.inr rfl))) (follow_ws w4' (.inr (.inr rfl))) e4
      obtain ⟨rfl, _, rfl⟩ := lead_char w4 w4' (by decide) (by decide) e5
      exact ⟨rfl, rfl, rfl⟩
    | more w1' k' w2' w3' v' w4' t' =>
      simp only [member_form2] at e; try simp only [member_form] at e
      obtain ⟨rfl, _, e1⟩ := lead_char w1 w1' (by decide) (by decide) e
      obtain ⟨rfl, rfl, e2⟩ := strBody_unique k k' e1
      obtain ⟨rfl, _, e3⟩ := lead_char w2 w2' (by decide) (by decide) e2
      obtain ⟨rfl, e4⟩ := lead_ws w3 w3' v v' e3
      obtain ⟨rfl, rfl, e5⟩ := value_unique v v' (follow_ws w4 (.inr (.inr rfl))) (follow_ws w4' (.inl rfl)) e4
      have := lead_char w4 w4' (by decide) (by decide) e5
      exact absurd this.2.1 (by decide)
  | more w1 k w2 w3 v w4 t =>
    cases h' with
    | one w1' k' w2' w3' v' w4' =>
      simp only [member_form2] at e; try simp only [member_form] at e
      obtain ⟨rfl, _, e1⟩ := lead_char w1 w1' (by decide) (by decide) e
      obtain ⟨rfl, rfl, e2⟩ := strBody_unique k k' e1
      obtain ⟨rfl, _, e3⟩ := lead_char w2 w2' (by decide) (by decide) e2
      obtain ⟨rfl, e4⟩ := lead_ws w3 w3' v v' e3
      obtain ⟨rfl, rfl, e5⟩ := value_unique v v' (follow_ws w4 (.inl rfl)) (follow_ws w4' (.inr (.inr rfl))) e4
      have := lead_char w4 w4' (by decide) (by decide) e5
      exact absurd this.2.1 (by decide)
    | more w1' k' w2' w3' v' w4' t' =>
      simp only [member_form2] at e; try simp only [member_form] at e
      obtain ⟨rfl, _, e1⟩ := lead_char w1 w1' (by decide) (by decide) e
      obtain ⟨rfl, rfl, e2⟩ := strBody_unique k k' e1
      obtain ⟨rfl, _, e3⟩ := lead_char w2 w2' (by decide) (by decide) e2
      obtain ⟨rfl, e4⟩ := lead_ws w3 w3' v v' e3
      obtain ⟨rfl, rfl, e5⟩ := value_unique v v' (follow_ws w4 (.inl rfl)) (follow_ws w4' (.inl rfl)) e4
      obtain ⟨rfl, _, e6⟩ := lead_char w4 w4' (by decide) (by decide) e5
      obtain ⟨rfl, rfl, rfl⟩ := members_unique t t' e6
      exact ⟨rfl, rfl, rfl⟩
end

theorem follow_only_ws {w : PyStr} (h : Ws w) : Follow w := by
  intro c hc
  cases w with
  | nil => cases hc
  | cons x xs =>
    cases hc
    have hh : ∀ x ∈ cp " \t\n\r", x ∈ cp " \t\n\r,]}" := by decide
    exact hh c (h c (by simp))

/-- **C49.** A text stands for at most one value: what a JSON reader recovers from the written file is the tree written. -/
theorem json_unique {t : PyStr} {v v' : Json} (h : Spec.JsonText t v) (h' : Spec.JsonText t v') : v = v' := by
  obtain ⟨w1, m, w2, rfl, a1, a2, a3⟩ := h
  obtain ⟨w1', m', w2', e, b1, b2, b3⟩ := h'
  simp only [List.append_assoc] at e
  obtain ⟨rfl, e1⟩ := lead_ws a1 b1 a3 b3 e
  exact (value_unique a3 b3 (follow_only_ws a2) (follow_only_ws b2) e1).1

/-- **C49 (partial).** What any JSON reader recovers from the file is exactly the tree written. -/
theorem json_recovered_partial (calls : JObj) (js : List (PyStr × Json)) (h : WritesObj [] calls js) (v : Json) :
    Spec.JsonText (jFile calls) v ↔ v = .obj js :=
  ⟨fun hv => json_unique hv (json_writer_partial calls js h), fun e => e ▸ json_writer_partial calls js h⟩

/-- `{"id": 1, "children": [{}, "a\"b"], "size": 2.5}`, where the key `id` is used twice. -/
def Spec.sampleCalls : JObj :=
  .cons (cp "id") (.num (cp "1")) (.cons (cp "children") (.arr (.cons (.obj .nil) (.cons (.str (cp "a\"b")) .nil)))
    (.cons (cp "id") (.num (cp "7")) (.cons (cp "size") (.num (cp "2.5")) .nil)))

theorem Spec.digits_of (t : PyStr) (h : t ≠ [] ∧ ∀ c ∈ t, 48 ≤ c ∧ c ≤ 57) : Spec.Digits t := h

example : WritesObj [] Spec.sampleCalls [(cp "id", .num (cp "1")), (cp "children", .arr [.obj [], .str (cp "a\"b")]), (cp "size", .num (cp "2.5"))] := by
  have n1 : Spec.Number (cp "1") :=
    ⟨[], cp "1", [], [], rfl, .inl rfl, ⟨Spec.digits_of _ (by decide), .inr (by decide)⟩, .inl rfl, .inl rfl⟩
  have n2 : Spec.Number (cp "2.5") :=
    ⟨[], cp "2", cp ".5", [], rfl, .inl rfl, ⟨Spec.digits_of _ (by decide), .inr (by decide)⟩,
      .inr ⟨cp "5", Spec.digits_of _ (by decide), rfl⟩, .inl rfl⟩
  have c : ∀ s, (∀ c ∈ s, 0x20 ≤ c ∧ c ≠ 0x5c) → Spec.Clean s := fun s h => h
  refine .cons (by decide) (c _ (by decide)) (by decide) (.num n1) (.cons (by decide) (c _ (by decide)) (by decide)
    (.arr (.cons (.obj .nil) (.cons (.str (c _ (by decide))) .nil))) (.again (by decide) trivial (.cons (by decide) (c _ (by decide)) (by decide)
      (.num n2) .nil)))

example : jFile Spec.sampleCalls = cp "{\n  \"id\": 1,\n  \"children\": [\n    {\n    },\n    \"a\\\"b\"\n  ],\n  \"size\": 2.5\n}" := by
  decide +kernel

/-- Counterexample to the full statement: backslashes are not escaped. The text `C:\new` (with a backslash) is read back with a line
feed in the place of the backslash and the letter n. -/
theorem json_backslash_counterexample :
    Spec.JsonText (jFile (.cons (cp "text") (.str (cp "C:\\new")) .nil)) (.obj [(cp "text", .str (cp "C:\new"))]) := by
  have b : JsonStr (cp "C:\\new") (cp "C:\new") :=
    .plain (by decide) (by decide) (by decide) (.plain (by decide) (by decide) (by decide) (.escape (c := 10) (by decide)
      (.plain (by decide) (by decide) (by decide) (.plain (by decide) (by decide) (by decide) .nil))))
  have k : JsonStr (cp "text") (cp "text") := strBody_plain _ (by unfold Spec.Clean; decide) (by decide)
  refine ⟨[], jFile (.cons (cp "text") (.str (cp "C:\\new")) .nil), [], by simp, ws_nil, ws_nil, ?_⟩
  have hm := Members.one (w₁ := [0x0a, 0x20, 0x20]) (ws_indent 1) k ws_nil ws_space (Value.str b) (w₄ := [0x0a]) (ws_indent 0)
  have := Value.obj hm
  have e : jFile (.cons (cp "text") (.str (cp "C:\\new")) .nil) = cp "{" ++ ([0x0a, 0x20, 0x20] ++ cp "\"" ++ cp "text" ++ cp "\"" ++ [] ++ cp ":" ++ [0x20] ++
      (cp "\"" ++ cp "C:\\new" ++ cp "\"") ++ [0x0a]) ++ cp "}" := by decide +kernel
  rw [e]; exact this

theorem strBody_no_control {t s : PyStr} (h : JsonStr t s) : ∀ c ∈ t, 0x20 ≤ c := by
  have hx : ∀ c x, Spec.jsonHex c = some x → 0x20 ≤ c := by
    intro c x h
    by_contra hc
    unfold Spec.jsonHex at h
    rw [if_neg, if_neg, if_neg] at h
    · cases h
    all_goals
      intro hh
      have h48 : '0'.toNat = 48 := rfl
      have h97 : 'a'.toNat = 97 := rfl
      have h65 : 'A'.toNat = 65 := rfl
      omega
  induction h with
  | nil => intro c hc; cases hc
  | plain h1 _ _ _ ih =>
    intro c hc
    rcases List.mem_cons.1 hc with rfl | hc
    · exact h1
    · exact ih c hc
  | escape h1 _ ih =>
    intro c hc
    rcases List.mem_cons.1 hc with rfl | hc
    · decide
    · rcases List.mem_cons.1 hc with rfl | hc
      · have : ∀ p ∈ Spec.escapes, 0x20 ≤ p.1 := by decide
        exact this _ h1
      · exact ih c hc
  | unicode h1 h2 h3 h4 _ ih =>
    intro c hc
    simp only [List.mem_cons] at hc
    rcases hc with rfl | rfl | rfl | rfl | rfl | rfl | hc
    · decide
    · decide
    · exact hx _ _ h1
    · exact hx _ _ h2
    · exact hx _ _ h3
    · exact hx _ _ h4
    · exact ih c hc

/-- Counterexample to the full statement: a text with a control character, such as a tab or a line feed, is never written as a JSON
value. -/
theorem json_control_counterexample (s : PyStr) (c : Nat) (hc : c ∈ s) (h : c < 0x20) (v : Json) : ¬ Value (jString s) v := by
  intro hv
  have hm : c ∈ replaceChar 0x22 [0x5c, 0x22] s := by
    unfold replaceChar
    rw [List.mem_flatMap]
    exact ⟨c, hc, by rw [if_neg (by omega)]; simp⟩
  have hk : kindJson v = .string := by
    obtain ⟨c', r, e, hk⟩ := value_head hv
    have : c' = 0x22 := (List.cons.inj e).1.symm
    subst this
    exact (Option.some.inj hk).symm
  generalize ht : jString s = t at hv
  cases hv with
  | str hb =>
    rename_i t' s'
    have : replaceChar 0x22 [0x5c, 0x22] s = t' := by
      unfold jString at ht
      exact List.append_cancel_right ((List.cons.inj ht).2)
    rw [this] at hm
    have := strBody_no_control hb c hm
    omega
  | num => cases hk
  | lit => cases hk
  | arrEmpty => cases hk
  | arr => cases hk
  | objEmpty => cases hk
  | obj => cases hk

end Pdf
