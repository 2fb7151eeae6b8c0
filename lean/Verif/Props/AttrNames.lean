import Verif.Model.AttrNames
import Verif.Spec.AttrNames
import Verif.Spec.Xml
import Mathlib.Data.List.Basic
import Mathlib.Tactic.SplitIfs
import Mathlib.Tactic.Tauto
import Mathlib.Tactic.FinCases
/-! The names of attributes made from the keys of a font descriptor (C111). -/

namespace Pdf
open Spec

theorem isCap_iff (c : Nat) : isCap c = true ↔ Capital c := by simp [isCap, Capital]
theorem isSmall_iff (c : Nat) : isSmall c = true ↔ Small c := by simp [isSmall, Small]
theorem isSmallOrDigit_iff (c : Nat) : isSmallOrDigit c = true ↔ Small c ∨ Numeral c := by
  simp [isSmallOrDigit, isSmall_iff, Numeral]

theorem small_not_cap {c : Nat} (h : isSmall c = true) : isCap c = false := by
  simp only [isSmall, isCap, decide_eq_true_eq, decide_eq_false_iff_not] at *
  omega

theorem cap_not_small {c : Nat} (h : isCap c = true) : isSmallOrDigit c = false := by
  simp only [isSmallOrDigit, isSmall, isCap, decide_eq_true_eq, Bool.or_eq_false_iff, decide_eq_false_iff_not] at *
  omega

/-- Whether a hyphen comes between a character and what follows. -/
def wordBreak (c : Nat) : PyStr → Bool
  | [] => false
  | u :: rest => isCap u && (isSmallOrDigit c || (decide (c ≠ 10) && rest.head?.any isSmall))

/-- The text with its hyphens, one step at a time. -/
def hyphens : PyStr → PyStr
  | [] => []
  | c :: t => if wordBreak c t then c :: 45 :: hyphens t else c :: hyphens t

theorem allCap_step (c : Nat) (t : PyStr) :
    allCapSub (c :: t) = c :: (if isSmallOrDigit c && t.head?.any isCap then 45 :: allCapSub t else allCapSub t) := by
  cases t with
  | nil => simp [allCapSub]
  | cons u r =>
    rw [allCapSub]
    by_cases h : isSmallOrDigit c = true ∧ isCap u = true
    · rw [if_pos h]
      have e : allCapSub (u :: r) = u :: allCapSub r := by
        cases r with
        | nil => simp [allCapSub]
        | cons v r' => rw [allCapSub, if_neg]; simp [cap_not_small h.2]
      simp [h.1, h.2, e]
    · rw [if_neg h]
      have : (isSmallOrDigit c && (u :: r).head?.any isCap) = false := by
        simp only [List.head?_cons, Option.any_some]
        cases h1 : isSmallOrDigit c <;> cases h2 : isCap u <;> simp_all
      rw [this]
      rfl

theorem firstCap_head (s : PyStr) : (firstCapSub s).head? = s.head? := by
  match s with
  | [] => simp [firstCapSub]
  | [_] => simp [firstCapSub]
  | [_, _] => simp [firstCapSub]
  | c :: u :: l :: r => rw [firstCapSub]; split_ifs <;> rfl

theorem takeWhile_mem {p : Nat → Bool} {l : PyStr} {c : Nat} (h : c ∈ l.takeWhile p) : p c = true := by
  induction l with
  | nil => simp at h
  | cons a l ih =>
    rw [List.takeWhile_cons] at h
    split_ifs at h with ha
    · rcases List.mem_cons.1 h with rfl | h
      · exact ha
      · exact ih h
    · simp at h

theorem chunk_hyphens (r : PyStr) (hr : allCapSub (firstCapSub r) = hyphens r) :
    ∀ (chunk : PyStr) (x : Nat), isSmall x = true → (∀ c ∈ chunk, isSmall c = true) →
      allCapSub (x :: (chunk ++ firstCapSub r)) = hyphens (x :: (chunk ++ r)) := by
  intro chunk
  induction chunk with
  | nil =>
    intro x hx _
    rw [List.nil_append, List.nil_append, allCap_step, firstCap_head, hr, hyphens]
    have hx' : isSmallOrDigit x = true := by simp [isSmallOrDigit, hx]
    cases r with
    | nil => simp [wordBreak]
    | cons u r' => simp only [wordBreak, hx', List.head?_cons, Option.any_some, Bool.true_and, Bool.true_or, Bool.and_true]; split_ifs <;> rfl
  | cons y ys ih =>
    intro x hx hc
    have hy : isSmall y = true := hc y (by simp)
    have := ih y hy (fun c h => hc c (by simp [h]))
    rw [List.cons_append, List.cons_append, allCap_step, this]
    have hb : wordBreak x (y :: (ys ++ r)) = false := by simp [wordBreak, small_not_cap hy]
    rw [hyphens.eq_def (x :: y :: (ys ++ r))]
    simp [hb, small_not_cap hy]

theorem subs_hyphens : ∀ (n : Nat) (s : PyStr), s.length ≤ n → allCapSub (firstCapSub s) = hyphens s := by
  intro n
  induction n with
  | zero => intro s h; have : s = [] := by simpa using h
            subst this; simp [firstCapSub, allCapSub, hyphens]
  | succ n ih =>
    intro s h
    have plain : ∀ (c : Nat) (t : PyStr), t.length ≤ n → ¬ (c ≠ 10 ∧ t.head?.any isCap = true ∧ t.tail.head?.any isSmall = true) →
        allCapSub (c :: firstCapSub t) = hyphens (c :: t) := by
      intro c t ht hn
      rw [allCap_step, firstCap_head, ih t ht, hyphens]
      cases t with
      | nil => simp [wordBreak]
      | cons u r =>
        have : wordBreak c (u :: r) = (isSmallOrDigit c && (u :: r).head?.any isCap) := by
          simp only [wordBreak, List.head?_cons, Option.any_some, List.tail_cons] at *
          cases h1 : isSmallOrDigit c <;> cases h2 : isCap u <;> simp_all
        rw [this]
        split_ifs <;> rfl
    match s, h with
    | [], _ => simp [firstCapSub, allCapSub, hyphens]
    | [c], _ => simp [firstCapSub, allCapSub, hyphens, wordBreak]
    | [c, u], h =>
      have e : firstCapSub [c, u] = c :: firstCapSub [u] := by simp [firstCapSub]
      rw [e]
      exact plain c [u] (by simpa using h) (by simp)
    | c :: u :: l :: r, h =>
      rw [firstCapSub]
      by_cases hm : c ≠ 10 ∧ isCap u = true ∧ isSmall l = true
      · rw [if_pos hm]
        obtain ⟨h10, hu, hl⟩ := hm
        have hle := (List.dropWhile_sublist isSmall (l := r)).length_le
        have e := chunk_hyphens (r.dropWhile isSmall) (ih _ (by simp only [List.length_cons] at h; omega)) (r.takeWhile isSmall) l hl
          (fun c hc => takeWhile_mem hc)
        rw [List.takeWhile_append_dropWhile] at e
        rw [allCap_step, allCap_step 45, allCap_step u, e]
        have hl' := small_not_cap hl
        have hu' := cap_not_small hu
        have : isCap 45 = false := rfl
        have h45 : isSmallOrDigit 45 = false := rfl
        simp [hyphens, wordBreak, hu, hl, h10, hl', hu', this, h45]
      · rw [if_neg hm]
        refine plain c (u :: l :: r) (by simpa using h) ?_
        simpa using hm

/-- The pieces between the hyphens. -/
def pieces : PyStr → List PyStr
  | [] => []
  | c :: t =>
    match pieces t with
    | [] => [[c]]
    | p :: ps => if wordBreak c t then [c] :: p :: ps else (c :: p) :: ps

theorem pieces_nonempty (s : PyStr) : ∀ w ∈ pieces s, w ≠ [] := by
  induction s with
  | nil => simp [pieces]
  | cons c t ih =>
    rw [pieces]
    cases hp : pieces t with
    | nil => simp
    | cons p ps =>
      rw [hp] at ih
      dsimp only
      split_ifs <;> simp_all

theorem pieces_flatten (s : PyStr) : (pieces s).flatten = s := by
  induction s with
  | nil => simp [pieces]
  | cons c t ih =>
    rw [pieces]
    cases hp : pieces t with
    | nil => rw [hp] at ih; simp at ih; simp [← ih]
    | cons p ps =>
      rw [hp] at ih
      dsimp only
      split_ifs <;> simp_all

theorem pieces_eq_nil {s : PyStr} (h : pieces s = []) : s = [] := by
  have := pieces_flatten s
  rw [h] at this
  simpa using this.symm

theorem hyphens_pieces (s : PyStr) : hyphens s = [45].intercalate (pieces s) := by
  induction s with
  | nil => rfl
  | cons c t ih =>
    rw [hyphens, pieces, ih]
    cases hp : pieces t with
    | nil =>
      have := pieces_eq_nil hp
      subst this
      simp [wordBreak]
    | cons p ps =>
      dsimp only
      split_ifs
      · simp [List.intercalate]
      · cases ps <;> simp [List.intercalate]

theorem wordBreak_iff (c : Nat) (t : PyStr) : wordBreak c t = true ↔ NewWord [c] t := by
  cases t with
  | nil => simp [wordBreak, NewWord]
  | cons u r =>
    have hn : '\n'.toNat = 10 := rfl
    constructor
    · intro h
      simp only [wordBreak, Bool.and_eq_true, Bool.or_eq_true, decide_eq_true_eq, isCap_iff, isSmallOrDigit_iff] at h
      refine ⟨c, u, rfl, rfl, h.1, ?_⟩
      rcases h.2 with (h | h) | ⟨h, hs⟩
      · exact Or.inl h
      · exact Or.inr (Or.inl h)
      · right; right
        refine ⟨h, ?_⟩
        cases r with
        | nil => simp at hs
        | cons l r => exact ⟨l, rfl, (isSmall_iff l).1 (by simpa using hs)⟩
    · rintro ⟨x, v, hx, hv, hc, hs⟩
      simp at hx hv
      subst hx hv
      simp only [wordBreak, Bool.and_eq_true, Bool.or_eq_true, decide_eq_true_eq, isCap_iff, isSmallOrDigit_iff]
      refine ⟨hc, ?_⟩
      rcases hs with h | h | ⟨h, l, hl, hsm⟩
      · exact Or.inl (Or.inl h)
      · exact Or.inl (Or.inr h)
      · refine Or.inr ⟨h, ?_⟩
        rw [List.tail_cons] at hl
        rw [hl]
        simpa using (isSmall_iff l).2 hsm

theorem newWord_cons (c : Nat) {a : PyStr} (b : PyStr) (ha : a ≠ []) : NewWord (c :: a) b ↔ NewWord a b := by
  unfold NewWord
  cases a with
  | nil => exact absurd rfl ha
  | cons x a => simp [List.getLast?_cons_cons]

theorem newWord_append (w : PyStr) {a : PyStr} (b : PyStr) (ha : a ≠ []) : NewWord (w ++ a) b ↔ NewWord a b := by
  induction w with
  | nil => rfl
  | cons c w ih => rw [List.cons_append, newWord_cons c b (by simp [ha]), ih]

theorem pieces_words (s : PyStr) : WordsOf s (pieces s) := by
  refine ⟨pieces_flatten s, pieces_nonempty s, ?_⟩
  induction s with
  | nil => intro a b h ha; simp at h; exact absurd h.1 ha
  | cons c t ih =>
    intro a b h ha hb
    obtain ⟨c', a', rfl⟩ := List.exists_cons_of_ne_nil ha
    rw [List.cons_append, List.cons.injEq] at h
    obtain ⟨rfl, h⟩ := h
    have hne : t ≠ [] := by rintro rfl; simp at h; exact hb h.2
    rw [pieces]
    cases hp : pieces t with
    | nil => exact absurd (pieces_eq_nil hp) hne
    | cons p ps =>
      have pne := pieces_nonempty t p (by rw [hp]; simp)
      rw [hp] at ih
      dsimp only
      by_cases ha' : a' = []
      · subst ha'
        rw [List.nil_append] at h
        subst h
        rw [← wordBreak_iff]
        split_ifs with hw
        · simp only [hw, iff_true]
          exact ⟨[[c]], p :: ps, rfl, rfl⟩
        · refine iff_of_false ?_ hw
          rintro ⟨us, vs, e, f⟩
          cases us with
          | nil => simp at f
          | cons u us =>
            simp only [List.cons_append, List.cons.injEq] at e
            rw [← e.1] at f
            simp only [List.flatten_cons, List.cons_append, List.cons.injEq, true_and, List.append_eq_nil_iff] at f
            exact pne f.1
      · rw [newWord_cons c b ha', ← ih a' b h ha' hb]
        split_ifs with hw
        · constructor
          · rintro ⟨us, vs, e, f⟩
            cases us with
            | nil => simp at f
            | cons u us =>
              simp only [List.cons_append, List.cons.injEq] at e
              refine ⟨us, vs, e.2, ?_⟩
              rw [← e.1] at f
              simpa using f
          · rintro ⟨us, vs, e, f⟩
            exact ⟨[c] :: us, vs, by rw [e]; rfl, by simp [f]⟩
        · constructor
          · rintro ⟨us, vs, e, f⟩
            cases us with
            | nil => simp at f
            | cons u us =>
              simp only [List.cons_append, List.cons.injEq] at e
              refine ⟨p :: us, vs, by rw [e.2]; rfl, ?_⟩
              rw [← e.1] at f
              simpa using f
          · rintro ⟨us, vs, e, f⟩
            cases us with
            | nil => simp at f; exact absurd f ha'
            | cons u us =>
              simp only [List.cons_append, List.cons.injEq] at e
              refine ⟨(c :: p) :: us, vs, by rw [e.2]; rfl, ?_⟩
              rw [← e.1] at f
              simpa using f

theorem Spec.WordsOf.tail {w : PyStr} {ws : List PyStr} {t : PyStr} (h : WordsOf (w ++ t) (w :: ws)) : WordsOf t ws := by
  have hw := h.nonempty w (by simp)
  refine ⟨by have := h.all; simpa using this, fun v hv => h.nonempty v (by simp [hv]), ?_⟩
  intro a b e ha hb
  have := h.breaks (w ++ a) b (by rw [e, List.append_assoc]) (by simp [hw]) hb
  rw [newWord_append w b ha] at this
  rw [← this]
  constructor
  · rintro ⟨us, vs, e, f⟩
    exact ⟨w :: us, vs, by rw [e]; rfl, by simp [f]⟩
  · rintro ⟨us, vs, e, f⟩
    cases us with
    | nil => simp at f; exact absurd f.1 hw
    | cons u us =>
      simp only [List.cons_append, List.cons.injEq] at e
      refine ⟨us, vs, e.2, ?_⟩
      rw [← e.1] at f
      simpa using f

theorem wordsOf_prefix {s : PyStr} {w w' : PyStr} {ws ws' : List PyStr} (h : WordsOf s (w :: ws)) (h' : WordsOf s (w' :: ws')) :
    ¬ w.length < w'.length := by
  intro lt
  have e : s = w ++ ws.flatten := by rw [← h.all]; simp
  have e' : s = w' ++ ws'.flatten := by rw [← h'.all]; simp
  have hb : ws.flatten ≠ [] := by
    intro hb
    rw [hb, List.append_nil] at e
    have := congrArg List.length (e.symm.trans e')
    simp only [List.length_append] at this
    omega
  have hw := h.nonempty w (by simp)
  have nw := (h.breaks w ws.flatten e hw hb).1 ⟨[w], ws, rfl, by simp⟩
  obtain ⟨us, vs, e₁, f⟩ := (h'.breaks w ws.flatten e hw hb).2 nw
  cases us with
  | nil => simp at f; exact hw f
  | cons u us =>
    simp only [List.cons_append, List.cons.injEq] at e₁
    rw [← e₁.1] at f
    have := congrArg List.length f
    simp only [List.flatten_cons, List.length_append] at this
    omega

/-- A text has one list of words. -/
theorem words_unique : ∀ {ws ws' : List PyStr} {s : PyStr}, WordsOf s ws → WordsOf s ws' → ws = ws'
  | [], [], _, _, _ => rfl
  | [], w' :: ws', s, h, h' => by
    have e : s = [] := by rw [← h.all]; rfl
    have := h'.all
    rw [e] at this
    simp at this
    exact absurd this.1 (h'.nonempty w' (by simp))
  | w :: ws, [], s, h, h' => by
    have e : s = [] := by rw [← h'.all]; rfl
    have := h.all
    rw [e] at this
    simp at this
    exact absurd this.1 (h.nonempty w (by simp))
  | w :: ws, w' :: ws', s, h, h' => by
    have l := wordsOf_prefix h h'
    have l' := wordsOf_prefix h' h
    have e : s = w ++ ws.flatten := by rw [← h.all]; simp
    have e' : s = w' ++ ws'.flatten := by rw [← h'.all]; simp
    obtain ⟨ew, et⟩ := List.append_inj (e.symm.trans e') (by omega)
    subst ew
    rw [e] at h
    rw [e', ← et] at h'
    rw [words_unique h.tail h'.tail]

theorem lowerText_smallOf (s : PyStr) : lowerText s = s.map smallOf := by
  refine List.map_congr_left fun c _ => ?_
  by_cases h : 65 ≤ c ∧ c ≤ 90
  · have : isCap c = true := by simpa [isCap] using h
    rw [if_pos this]
    show c + 32 = if 65 ≤ c ∧ c ≤ 90 then c - 65 + 97 else c
    rw [if_pos h]; omega
  · have : isCap c = false := by simpa [isCap] using h
    rw [this]
    show c = if 65 ≤ c ∧ c ≤ 90 then c - 65 + 97 else c
    rw [if_neg h]

/-! ## C111 -/

/-- Every key has words. -/
theorem words_exist (s : PyStr) : ∃ ws, WordsOf s ws := ⟨_, pieces_words s⟩

/-- The name of the attribute: the words of the key in small letters, with hyphens between them. For every text. -/
theorem snake_words {s : PyStr} {ws : List PyStr} (h : WordsOf s ws) : snakeCase s = hyphened ws := by
  rw [words_unique h (pieces_words s)]
  unfold snakeCase hyphened
  rw [subs_hyphens _ s (Nat.le_refl _), hyphens_pieces, lowerText_smallOf]
  generalize pieces s = l
  have hs : smallOf 45 = 45 := rfl
  show _ = [45].intercalate _
  induction l with
  | nil => simp [List.intercalate]
  | cons w l ih =>
    cases l with
    | nil => simp [List.intercalate]
    | cons v l =>
      have e : ∀ a b : PyStr, ∀ m, [45].intercalate (a :: b :: m) = a ++ 45 :: [45].intercalate (b :: m) := by
        intro a b m; simp [List.intercalate]
      rw [List.map_cons, List.map_cons, e, e, ← List.map_cons, ← ih, List.map_append, List.map_cons, hs]

/-- Words that are a capital and small letters are the words of the text they make. -/
theorem keyWords_words {ws : List PyStr} (h : ∀ w ∈ ws, KeyWord w) : WordsOf ws.flatten ws := by
  refine ⟨rfl, fun w hw => by obtain ⟨u, l, e, -⟩ := h w hw; rw [e]; simp, ?_⟩
  induction ws with
  | nil => intro a b e ha; simp at e; exact absurd e.1 ha
  | cons w wt ih =>
    intro a b e ha hb
    obtain ⟨u, l, ew, hu, hl, hs⟩ := h w (by simp)
    have wne : w ≠ [] := by rw [ew]; simp
    have fw : (w :: wt).flatten = w ++ wt.flatten := by simp
    rw [fw, List.append_eq_append_iff] at e
    rcases e with ⟨a', e₁, e₂⟩ | ⟨c', e₁, e₂⟩
    · -- a = w ++ a'
      by_cases ha' : a' = []
      · subst ha'
        rw [List.append_nil] at e₁
        rw [List.nil_append] at e₂
        subst e₁
        refine iff_of_true ⟨[a], wt, rfl, by simp⟩ ?_
        cases wt with
        | nil => simp at e₂; exact absurd e₂ hb
        | cons v wt =>
          obtain ⟨u', l', ev, hu', -⟩ := h v (by simp)
          refine ⟨l.getLast hl, u', ?_, ?_, hu', Or.inl (hs _ (List.getLast_mem hl))⟩
          · rw [ew, List.getLast?_cons, List.getLast?_eq_getLast_of_ne_nil hl]; rfl
          · rw [← e₂, ev]; rfl
      · subst e₁
        rw [newWord_append w b ha', ← ih (fun w hw => h w (by simp [hw])) a' b e₂ ha' hb]
        constructor
        · rintro ⟨us, vs, e, f⟩
          cases us with
          | nil => simp at f; exact absurd f.1.symm (fun h => wne h.symm)
          | cons u us =>
            simp only [List.cons_append, List.cons.injEq] at e
            refine ⟨us, vs, e.2, ?_⟩
            rw [← e.1] at f
            simpa using f
        · rintro ⟨us, vs, e, f⟩
          exact ⟨w :: us, vs, by rw [e]; rfl, by simp [f]⟩
    · -- w = a ++ c', b = c' ++ flatten wt
      by_cases hc : c' = []
      · subst hc
        rw [List.append_nil] at e₁
        rw [List.nil_append] at e₂
        subst e₁
        refine iff_of_true ⟨[w], wt, rfl, by simp⟩ ?_
        cases wt with
        | nil => exact absurd e₂ (by simpa using hb)
        | cons v wt =>
          obtain ⟨u', l', ev, hu', -⟩ := h v (by simp)
          refine ⟨l.getLast hl, u', ?_, ?_, hu', Or.inl (hs _ (List.getLast_mem hl))⟩
          · rw [ew, List.getLast?_cons, List.getLast?_eq_getLast_of_ne_nil hl]; rfl
          · rw [e₂, ev]; rfl
      · obtain ⟨x, r, rfl⟩ := List.exists_cons_of_ne_nil hc
        obtain ⟨y, a₂, rfl⟩ := List.exists_cons_of_ne_nil ha
        rw [ew, List.cons_append, List.cons.injEq] at e₁
        have hx : Small x := hs x (by rw [e₁.2]; simp)
        refine iff_of_false ?_ ?_
        · rintro ⟨us, vs, e, f⟩
          cases us with
          | nil => simp at f
          | cons v us =>
            simp only [List.cons_append, List.cons.injEq] at e
            rw [← e.1, ew, e₁.2] at f
            have := congrArg List.length f
            simp at this
        · rintro ⟨z, v, -, hv, hcap, -⟩
          rw [e₂] at hv
          simp at hv
          subst hv
          simp only [Small, Capital] at hx hcap
          have : 'a'.toNat = 97 := rfl
          have : 'Z'.toNat = 90 := rfl
          omega

/-- The name made from a key of words. -/
theorem snake_keyWords {ws : List PyStr} (h : ∀ w ∈ ws, KeyWord w) : snakeCase ws.flatten = hyphened ws := snake_words (keyWords_words h)

theorem hyphened_cons (w : PyStr) (ws : List PyStr) :
    hyphened (w :: ws) = w.map smallOf ++ (if ws = [] then [] else 45 :: hyphened ws) := by
  unfold hyphened
  show [45].intercalate _ = _
  cases ws <;> simp [List.intercalate]

theorem keyWord_lower {w : PyStr} (h : KeyWord w) : 45 ∉ w.map smallOf ∧ w.map smallOf ≠ [] ∧
    ∀ w', KeyWord w' → w'.map smallOf = w.map smallOf → w' = w := by
  have key : ∀ {v : PyStr}, KeyWord v → ∃ u l, v = u :: l ∧ (65 ≤ u ∧ u ≤ 90) ∧ v.map smallOf = (u + 32) :: l ∧ ∀ c ∈ l, 97 ≤ c := by
    rintro v ⟨u, l, rfl, hu, -, hs⟩
    have hu' : 65 ≤ u ∧ u ≤ 90 := hu
    refine ⟨u, l, rfl, hu', ?_, fun c hc => (hs c hc).1⟩
    have e₁ : smallOf u = u + 32 := by
      show (if 65 ≤ u ∧ u ≤ 90 then u - 65 + 97 else u) = _
      rw [if_pos hu']; omega
    have e₂ : l.map smallOf = l := by
      conv_rhs => rw [← List.map_id l]
      refine List.map_congr_left fun c hc => ?_
      have := (hs c hc).1
      have h97 : 97 ≤ c := this
      show (if 65 ≤ c ∧ c ≤ 90 then c - 65 + 97 else c) = _
      rw [if_neg (by omega)]; rfl
    rw [List.map_cons, e₁, e₂]
  obtain ⟨u, l, e, hu, em, hl⟩ := key h
  rw [em]
  refine ⟨?_, by simp, ?_⟩
  · intro hm
    rcases List.mem_cons.1 hm with h | h
    · omega
    · have := hl _ h; omega
  · intro w' h' e'
    obtain ⟨u', l', e₂, hu', em', -⟩ := key h'
    rw [em', List.cons.injEq] at e'
    rw [e₂, e, e'.2]
    congr 1
    omega

theorem hyphened_inj : ∀ {ws vs : List PyStr}, (∀ w ∈ ws, KeyWord w) → (∀ w ∈ vs, KeyWord w) → hyphened ws = hyphened vs → ws = vs
  | [], [], _, _, _ => rfl
  | [], v :: vs, _, hv, e => by
    rw [hyphened_cons] at e
    have := (keyWord_lower (hv v (by simp))).2.1
    simp [hyphened, List.intercalate] at e
    exact absurd e.1 (by simpa using this)
  | w :: ws, [], hw, _, e => by
    rw [hyphened_cons] at e
    have := (keyWord_lower (hw w (by simp))).2.1
    simp [hyphened, List.intercalate] at e
    exact absurd e.1 (by simpa using this)
  | w :: ws, v :: vs, hw, hv, e => by
    have lw := keyWord_lower (hw w (by simp))
    have lv := keyWord_lower (hv v (by simp))
    rw [hyphened_cons, hyphened_cons] at e
    have take : ∀ (x : PyStr) (l : List PyStr), 45 ∉ x → (x ++ (if l = [] then [] else 45 :: hyphened l)).takeWhile (fun c => c ≠ 45) = x := by
      intro x l hx
      have hall : ∀ c ∈ x, (decide (c ≠ 45)) = true := fun c hc => by
        simp only [decide_eq_true_eq]; rintro rfl; exact hx hc
      rw [List.takeWhile_append_of_pos hall]
      split_ifs <;> simp
    have e₁ := congrArg (List.takeWhile fun c => decide (c ≠ 45)) e
    rw [take _ _ lw.1, take _ _ lv.1] at e₁
    have ewv := lv.2.2 w (hw w (by simp)) e₁
    rw [e₁] at e
    have e₂ := List.append_cancel_left e
    have rest : ws = vs := by
      by_cases h₁ : ws = [] <;> by_cases h₂ : vs = []
      · rw [h₁, h₂]
      · rw [if_pos h₁, if_neg h₂] at e₂; simp at e₂
      · rw [if_neg h₁, if_pos h₂] at e₂; simp at e₂
      · rw [if_neg h₁, if_neg h₂] at e₂
        exact hyphened_inj (fun w h => hw w (by simp [h])) (fun w h => hv w (by simp [h])) (List.cons.inj e₂).2
    rw [ewv, rest]

/-- Different keys of words give different names. -/
theorem snake_distinct {ws vs : List PyStr} (hw : ∀ w ∈ ws, KeyWord w) (hv : ∀ w ∈ vs, KeyWord w)
    (e : snakeCase ws.flatten = snakeCase vs.flatten) : ws = vs := by
  rw [snake_keyWords hw, snake_keyWords hv] at e
  exact hyphened_inj hw hv e

theorem hyphened_mem {ws : List PyStr} {x : Nat} (h : x ∈ hyphened ws) : x = 45 ∨ ∃ c ∈ ws.flatten, x = smallOf c := by
  induction ws with
  | nil => simp [hyphened, List.intercalate] at h
  | cons w ws ih =>
    rw [hyphened_cons, List.mem_append] at h
    rcases h with h | h
    · obtain ⟨c, hc, rfl⟩ := List.mem_map.1 h
      exact Or.inr ⟨c, by simp [hc], rfl⟩
    · split_ifs at h with hn
      · simp at h
      · rcases List.mem_cons.1 h with h | h
        · exact Or.inl h
        · rcases ih h with h | ⟨c, hc, e⟩
          · exact Or.inl h
          · exact Or.inr ⟨c, by rw [List.flatten_cons]; exact List.mem_append_right _ hc, e⟩

/-- A key of letters and digits, with a letter first, gives a name of XML. -/
theorem snake_name {k : PyStr} (h : PlainKey k) : XmlName (snakeCase k) := by
  obtain ⟨ws, hws⟩ := words_exist k
  rw [snake_words hws]
  obtain ⟨c, r, rfl, hc, hr⟩ := h
  have lowers : ∀ x, Capital x ∨ Small x → nameStart (smallOf x) = true := by
    intro x hx
    have hx' : (65 ≤ x ∧ x ≤ 90) ∨ (97 ≤ x ∧ x ≤ 122) := hx
    show (decide (97 ≤ smallOf x ∧ smallOf x ≤ 122) || decide (65 ≤ smallOf x ∧ smallOf x ≤ 90) || decide (smallOf x = 95)) = true
    have : 97 ≤ smallOf x ∧ smallOf x ≤ 122 := by
      show 97 ≤ (if 65 ≤ x ∧ x ≤ 90 then x - 65 + 97 else x) ∧ (if 65 ≤ x ∧ x ≤ 90 then x - 65 + 97 else x) ≤ 122
      split_ifs <;> omega
    rw [decide_eq_true this]
    rfl
  have all : ∀ x ∈ hyphened ws, nameChar x = true := by
    intro x hx
    rcases hyphened_mem hx with rfl | ⟨y, hy, rfl⟩
    · rfl
    · rw [hws.all] at hy
      have : (Capital y ∨ Small y) ∨ Numeral y := by
        rcases List.mem_cons.1 hy with rfl | hy
        · exact Or.inl hc
        · have := hr y hy; tauto
      rcases this with h | h
      · simp [nameChar, lowers y h]
      · have h' : 48 ≤ y ∧ y ≤ 57 := h
        have e : smallOf y = y := by
          show (if 65 ≤ y ∧ y ≤ 90 then y - 65 + 97 else y) = y
          rw [if_neg (by omega)]
        rw [e]
        have : decide ('0'.toNat ≤ y ∧ y ≤ '9'.toNat) = true := decide_eq_true h
        simp only [nameChar, this, Bool.or_true, Bool.true_or]
  cases ws with
  | nil => have := hws.all; simp at this
  | cons w ws =>
    have wne := hws.nonempty w (by simp)
    obtain ⟨x, w', rfl⟩ := List.exists_cons_of_ne_nil wne
    have hx : x = c := by have := hws.all; simp at this; exact this.1
    rw [hyphened_cons] at all ⊢
    refine ⟨smallOf x, w'.map smallOf ++ (if ws = [] then [] else 45 :: hyphened ws), by simp, by rw [hx]; exact lowers c hc, ?_⟩
    intro y hy
    exact all y (by simp only [List.map_cons, List.cons_append, List.mem_cons]; exact Or.inr hy)

/-- Keys that differ only in whether a letter is capital can give one name: then the attribute has the value that comes last. -/
theorem snake_distinct_counterexample : ∃ k k' : PyStr, k ≠ k' ∧ PlainKey k ∧ PlainKey k' ∧ snakeCase k = snakeCase k' := by
  refine ⟨pstr "fontName", pstr "FontName", by decide, ?_, ?_, by decide +kernel⟩
  · exact ⟨'f'.toNat, pstr "ontName", rfl, Or.inr (by unfold Small; decide), by unfold Capital Small Numeral; decide⟩
  · exact ⟨'F'.toNat, pstr "ontName", rfl, Or.inl (by unfold Capital; decide), by unfold Capital Small Numeral; decide⟩

/-! Keys of font descriptors. -/

example : snakeCase (pstr "FontName") = pstr "font-name" := by decide +kernel
example : snakeCase (pstr "FontBBox") = pstr "font-b-box" := by decide +kernel
example : snakeCase (pstr "CIDSet") = pstr "cid-set" := by decide +kernel
example : snakeCase (pstr "XHeight") = pstr "x-height" := by decide +kernel
example : snakeCase (pstr "StemV") = pstr "stem-v" := by decide +kernel
example : ∀ w ∈ [pstr "Font", pstr "Name"], KeyWord w := by
  intro w hw
  fin_cases hw
  · exact ⟨'F'.toNat, pstr "ont", rfl, by unfold Capital; decide, by decide, by unfold Small; decide⟩
  · exact ⟨'N'.toNat, pstr "ame", rfl, by unfold Capital; decide, by decide, by unfold Small; decide⟩
example : WordsOf (pstr "FontBBox") [pstr "Font", pstr "B", pstr "Box"] := by
  have e : pieces (pstr "FontBBox") = [pstr "Font", pstr "B", pstr "Box"] := by decide +kernel
  exact e ▸ pieces_words _

end Pdf
