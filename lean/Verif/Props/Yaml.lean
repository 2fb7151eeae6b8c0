import Verif.Spec.Yaml
import Mathlib.Data.List.Infix
import Mathlib.Tactic.SplitIfs
/-! The YAML writer (converters/writers/yaml.py): what its files stand for. -/

namespace Pdf

open Spec (Yaml Plain YamlKey Flow FlowItems FlowMembers FlowSeq Block BlockMembers BlockItems YamlText YPlace YamlScalar WritesMembers WritesItems
  yamlLines textLines asMap asSeq cp yamlChar)

/-! ### Lines -/

theorem textLines_ne (a : PyStr) : ∃ l ls, textLines a = l :: ls := by
  cases a with
  | nil => exact ⟨_, _, rfl⟩
  | cons c r =>
    simp only [textLines]
    split_ifs
    · exact ⟨_, _, rfl⟩
    · split <;> exact ⟨_, _, rfl⟩

theorem textLines_append (a b : PyStr) : textLines (a ++ 0x0a :: b) = textLines a ++ textLines b := by
  induction a with
  | nil => simp [textLines]
  | cons c r ih =>
    obtain ⟨l, ls, h⟩ := textLines_ne r
    simp only [List.cons_append, textLines, ih, h]
    split_ifs <;> simp

theorem textLines_one (a : PyStr) (h : (0x0a : Nat) ∉ a) : textLines a = [a] := by
  induction a with
  | nil => rfl
  | cons c r ih =>
    simp only [List.mem_cons, not_or] at h
    have hc : ¬ c = '\n'.toNat := fun e => h.1 e.symm
    simp only [textLines, ih h.2, if_neg hc]

theorem yamlLines_append (a b : PyStr) : yamlLines (a ++ 0x0a :: b) = yamlLines a ++ yamlLines b := by
  simp [yamlLines, textLines_append]

theorem yamlLines_nl (a b : PyStr) : yamlLines (a ++ [0x0a] ++ b) = yamlLines a ++ yamlLines b := by
  simp [yamlLines_append]

theorem yamlLines_nil : yamlLines [] = [] := rfl

theorem dropWhile_spaces (n : Nat) (c : PyStr) (h : ∀ x, c.head? = some x → x ≠ 0x20) :
    (List.replicate n 0x20 ++ c).dropWhile (fun c => decide (c = ' '.toNat)) = c := by
  induction n with
  | zero =>
    cases c with
    | nil => rfl
    | cons x r =>
      have : ¬ x = 32 := h x rfl
      simp [List.dropWhile, this]
  | succ n ih => simpa [List.replicate_succ, List.dropWhile] using ih

/-- One line: its indentation, and its content between spaces. -/
theorem yamlLines_line (n j : Nat) (c : PyStr) (hn : (0x0a : Nat) ∉ c) (h0 : c ≠ []) (hh : ∀ x, c.head? = some x → x ≠ 0x20)
    (hl : ∀ x, c.getLast? = some x → x ≠ 0x20) : yamlLines (List.replicate n 0x20 ++ c ++ List.replicate j 0x20) = [(n, c)] := by
  have e1 : (List.replicate n 0x20 ++ c ++ List.replicate j 0x20).dropWhile (fun c => decide (c = ' '.toNat)) = c ++ List.replicate j 0x20 := by
    rw [List.append_assoc]
    refine dropWhile_spaces n _ ?_
    intro x hx
    cases c with
    | nil => exact absurd rfl h0
    | cons y r => exact hh x hx
  have e2 : ((c ++ List.replicate j 0x20).reverse.dropWhile (fun c => decide (c = ' '.toNat))).reverse = c := by
    rw [List.reverse_append, List.reverse_replicate, dropWhile_spaces j c.reverse (by
      intro x hx
      exact hl x (by simpa using hx)), List.reverse_reverse]
  have e3 : textLines (List.replicate n 0x20 ++ c ++ List.replicate j 0x20) = [List.replicate n 0x20 ++ c ++ List.replicate j 0x20] := by
    refine textLines_one _ ?_
    simp [List.mem_replicate, hn]
  have e4 : Spec.indented (List.replicate n 0x20 ++ c ++ List.replicate j 0x20) = (n, c) := by
    simp only [Spec.indented, e1, e2]
    simp
  rw [yamlLines, e3, List.map_singleton, e4]
  simp [h0]

/-! ### The texts of scalars -/

theorem yamlChar_not_nl {c : Nat} (h : yamlChar c) : c ≠ 0x0a := by
  have := h.1
  rintro rfl
  exact absurd this (by decide)

theorem not_nl_mem {s : PyStr} (h : ∀ c ∈ s, yamlChar c) : (0x0a : Nat) ∉ s := fun hm => yamlChar_not_nl (h _ hm) rfl

theorem yamlChar_of {c : Nat} (h : 0x20 ≤ c ∧ c ≤ 0x7e) : yamlChar c := by
  refine ⟨h.1, ?_, ?_, ?_, ?_, ?_, ?_, ?_, ?_⟩ <;> omega

theorem yamlKey_char : ∀ c ∈ cp "ABCDEFGHIJKLMNOPQRSTUVWXYZabcdefghijklmnopqrstuvwxyz0123456789_", (0x30 ≤ c ∧ c ≤ 0x7a) ∧ c ≠ 0x3a := by
  decide

theorem key_chars {k : PyStr} (h : YamlKey k) : ∀ c ∈ k, (0x30 ≤ c ∧ c ≤ 0x7a) ∧ c ≠ 0x3a := fun c hc => yamlKey_char c (h.2 c hc)

mutual
theorem flow_chars {t : PyStr} {v : Yaml} (h : Flow t v) : ∀ c ∈ t, yamlChar c := by
  match h with
  | .plain hp => exact fun c hc => (hp.2 c hc).1
  | .quoted hq =>
    intro c hc
    simp only [List.mem_append] at hc
    rcases hc with (hc | hc) | hc
    · exact yamlChar_of ((by decide : ∀ c ∈ cp "'", 0x20 ≤ c ∧ c ≤ 0x7e) c hc)
    · exact (hq c hc).1
    · exact yamlChar_of ((by decide : ∀ c ∈ cp "'", 0x20 ≤ c ∧ c ≤ 0x7e) c hc)
  | .emptySeq => exact fun c hc => yamlChar_of ((by decide : ∀ c ∈ cp "[]", 0x20 ≤ c ∧ c ≤ 0x7e) c hc)
  | .seq hi =>
    intro c hc
    simp only [List.mem_append] at hc
    rcases hc with (hc | hc) | hc
    · exact yamlChar_of ((by decide : ∀ c ∈ cp "[", 0x20 ≤ c ∧ c ≤ 0x7e) c hc)
    · exact flowItems_chars hi c hc
    · exact yamlChar_of ((by decide : ∀ c ∈ cp "]", 0x20 ≤ c ∧ c ≤ 0x7e) c hc)
  | .map hm =>
    intro c hc
    simp only [List.mem_append] at hc
    rcases hc with (hc | hc) | hc
    · exact yamlChar_of ((by decide : ∀ c ∈ cp "{", 0x20 ≤ c ∧ c ≤ 0x7e) c hc)
    · exact flowMembers_chars hm c hc
    · exact yamlChar_of ((by decide : ∀ c ∈ cp "}", 0x20 ≤ c ∧ c ≤ 0x7e) c hc)
theorem flowItems_chars {t : PyStr} {l : List Yaml} (h : FlowItems t l) : ∀ c ∈ t, yamlChar c := by
  match h with
  | .one hf => exact flow_chars hf
  | .more hf hi =>
    intro c hc
    simp only [List.mem_append] at hc
    rcases hc with (hc | hc) | hc
    · exact flow_chars hf c hc
    · exact yamlChar_of ((by decide : ∀ c ∈ cp ", ", 0x20 ≤ c ∧ c ≤ 0x7e) c hc)
    · exact flowItems_chars hi c hc
theorem flowMembers_chars {t : PyStr} {l : List (PyStr × Yaml)} (h : FlowMembers t l) : ∀ c ∈ t, yamlChar c := by
  match h with
  | .one hk hf =>
    intro c hc
    simp only [List.mem_append] at hc
    rcases hc with ((hc | hc) | hc) | hc
    · exact yamlChar_of ((by decide : ∀ c ∈ cp "'", 0x20 ≤ c ∧ c ≤ 0x7e) c hc)
    · exact (hk c hc).1
    · exact yamlChar_of ((by decide : ∀ c ∈ cp "': ", 0x20 ≤ c ∧ c ≤ 0x7e) c hc)
    · exact flow_chars hf c hc
  | .more hk hf hm =>
    intro c hc
    simp only [List.mem_append] at hc
    rcases hc with ((((hc | hc) | hc) | hc) | hc) | hc
    · exact yamlChar_of ((by decide : ∀ c ∈ cp "'", 0x20 ≤ c ∧ c ≤ 0x7e) c hc)
    · exact (hk c hc).1
    · exact yamlChar_of ((by decide : ∀ c ∈ cp "': ", 0x20 ≤ c ∧ c ≤ 0x7e) c hc)
    · exact flow_chars hf c hc
    · exact yamlChar_of ((by decide : ∀ c ∈ cp ", ", 0x20 ≤ c ∧ c ≤ 0x7e) c hc)
    · exact flowMembers_chars hm c hc
end

/-- A flow sequence starts and ends with its brackets. -/
theorem flowSeq_form {t : PyStr} {v : Yaml} (h : FlowSeq t v) : ∃ u, t = 0x5b :: (u ++ [0x5d]) := by
  obtain ⟨hf, l, rfl⟩ := h
  cases hf with
  | emptySeq => exact ⟨[], rfl⟩
  | @seq u _ hi => exact ⟨u, by simp [cp]⟩

/-- A line of a mapping, as the reader sees it: `c` is the content, with `j` spaces after it. -/
theorem scalar_line {n : Nat} {k t : PyStr} {v : Yaml} {rest ms} (hk : YamlKey k) (ht : YamlScalar t v) (hr : BlockMembers n rest ms) :
    ∃ c j, k ++ [0x3a, 0x20] ++ t = c ++ List.replicate j 0x20 ∧ (0x0a : Nat) ∉ c ∧ c ≠ [] ∧ (∀ x, c.head? = some x → x ≠ 0x20) ∧
      (∀ x, c.getLast? = some x → x ≠ 0x20) ∧ BlockMembers n ((n, c) :: rest) ((k, v) :: ms) := by
  have hkn : (0x0a : Nat) ∉ k := fun hm => by have := key_chars hk _ hm; omega
  have hhead : ∀ (r : PyStr) x, (k ++ r).head? = some x → x ≠ 0x20 := by
    intro r x hx
    obtain ⟨h0, _⟩ := hk
    cases k with
    | nil => exact absurd rfl h0
    | cons y q =>
      have := key_chars ⟨h0, by assumption⟩ y (by simp)
      simp at hx
      omega
  cases ht with
  | plain hp =>
    obtain ⟨c0, r0, e0, _⟩ := hp.start
    refine ⟨k ++ [0x3a, 0x20] ++ t, 0, by simp, ?_, by simp, ?_, ?_, .scalar hk hp hr⟩
    · have := not_nl_mem hp.chars
      simp [hkn, this]
    · intro x hx
      rw [List.append_assoc] at hx
      exact hhead _ x hx
    · intro x hx
      have hl := hp.last.1
      rw [List.getLast?_append_of_ne_nil _ (by simp [e0])] at hx
      rintro rfl
      exact hl hx
  | flow hf =>
    obtain ⟨u, e⟩ := flowSeq_form hf
    refine ⟨k ++ [0x3a, 0x20] ++ t, 0, by simp, ?_, by simp, ?_, ?_, .flow hk hf hr⟩
    · have := not_nl_mem (flow_chars hf.1)
      simp [hkn, this]
    · intro x hx
      rw [List.append_assoc] at hx
      exact hhead _ x hx
    · intro x hx
      rw [List.getLast?_append_of_ne_nil _ (by simp [e]), e, ← List.cons_append, List.getLast?_append_of_ne_nil _ (by simp)] at hx
      simp at hx
      omega
  | empty =>
    refine ⟨k ++ [0x3a], 1, by simp, ?_, by simp, hhead _, ?_, .null hk hr⟩
    · simp [hkn]
    · intro x hx
      rw [List.getLast?_append_of_ne_nil _ (by simp)] at hx
      simp at hx
      omega

/-- The line of a key before a child. -/
theorem key_line {k : PyStr} (hk : YamlKey k) : (0x0a : Nat) ∉ k ++ [0x3a] ∧ k ++ [0x3a] ≠ [] ∧ (∀ x, (k ++ [0x3a]).head? = some x → x ≠ 0x20) ∧
    (∀ x, (k ++ [0x3a]).getLast? = some x → x ≠ 0x20) := by
  have hkn : (0x0a : Nat) ∉ k := fun hm => by have := key_chars hk _ hm; omega
  refine ⟨by simp [hkn], by simp, ?_, ?_⟩
  · intro x hx
    obtain ⟨h0, _⟩ := hk
    cases k with
    | nil => exact absurd rfl h0
    | cons y q =>
      have := key_chars ⟨h0, by assumption⟩ y (by simp)
      simp at hx
      omega
  · intro x hx
    rw [List.getLast?_append_of_ne_nil _ (by simp)] at hx
    simp at hx
    omega

/-! ### The writer -/

/-- The lines of an element of a sequence, from those of its mapping. -/
def dashed (n : Nat) : List (Nat × PyStr) → List (Nat × PyStr)
  | [] => [(n, [0x2d])]
  | (_, c) :: r => (n, [0x2d, 0x20] ++ c) :: r

theorem dashed_items {n : Nat} {ls rest : List (Nat × PyStr)} {ms : List (PyStr × Yaml)} {vs : List Yaml} (h : BlockMembers (n + 2) ls ms)
    (hr : BlockItems n rest vs) : BlockItems n (dashed n ls ++ rest) (asMap ms :: vs) := by
  have key : ∀ c r, ls = (n + 2, c) :: r → ms ≠ [] → BlockItems n (dashed n ls ++ rest) (asMap ms :: vs) := by
    rintro c r rfl hne
    have e : asMap ms = .map ms := by
      cases ms with
      | nil => exact absurd rfl hne
      | cons => rfl
    rw [e]
    exact .block (.map h hne) hr
  cases h with
  | nil => exact .null hr
  | scalar a b c => exact key _ _ rfl (by simp)
  | flow a b c => exact key _ _ rfl (by simp)
  | null a b => exact key _ _ rfl (by simp)
  | block a b c d => exact key _ _ rfl (by simp)

theorem child_members {n m : Nat} {k : PyStr} {sub rest : List (Nat × PyStr)} {v : Yaml} {ms : List (PyStr × Yaml)} (hk : YamlKey k) (hm : n < m)
    (hs : sub = [] ∧ v = .null ∨ Block m sub v) (hr : BlockMembers n rest ms) :
    BlockMembers n ((n, k ++ [0x3a]) :: (sub ++ rest)) ((k, v) :: ms) := by
  rcases hs with ⟨rfl, rfl⟩ | hs
  · exact .null hk hr
  · exact .block hk hm hs hr

theorem asMap_block {m : Nat} {ls ms} (h : BlockMembers m ls ms) : ls = [] ∧ asMap ms = .null ∨ Block m ls (asMap ms) := by
  by_cases hne : ms = []
  · subst hne
    cases h
    exact .inl ⟨rfl, rfl⟩
  · refine .inr ?_
    have e : asMap ms = .map ms := by
      cases ms with
      | nil => exact absurd rfl hne
      | cons => rfl
    rw [e]
    exact .map h hne

theorem asSeq_block {m : Nat} {ls vs} (h : BlockItems m ls vs) : ls = [] ∧ asSeq vs = .null ∨ Block m ls (asSeq vs) := by
  by_cases hne : vs = []
  · subst hne
    cases h
    exact .inl ⟨rfl, rfl⟩
  · refine .inr ?_
    have e : asSeq vs = .seq vs := by
      cases vs with
      | nil => exact absurd rfl hne
      | cons => rfl
    rw [e]
    exact .seq h hne

theorem yAddKey_new {keys : List PyStr} {k : PyStr} (h : k ∉ keys) : yAddKey keys k = k :: keys := if_neg h

/-- What the text of the calls on an object writer adds to the lines of the file. -/
structure MembersText (p : YPlace) (keys : List PyStr) (level : Nat) (text : PyStr) (ls : List (Nat × PyStr)) : Prop where
  later : keys ≠ [] → ∀ pre, yamlLines (pre ++ text) = yamlLines pre ++ ls
  inArray : keys = [] → p = .array → ∀ n, 2 * level = n + 2 → yamlLines (List.replicate n 0x20 ++ [0x2d, 0x20] ++ text) = dashed n ls
  other : keys = [] → p ≠ .array → (p = .root → level = 0) → yamlLines text = ls

/-- A call that writes the line `c` (and spaces) after its indentation, then `more`. -/
theorem membersText_line {p : YPlace} {keys : List PyStr} {level : Nat} {c more : PyStr} {j : Nat} {lead : PyStr} {ls : List (Nat × PyStr)}
    (hn : (0x0a : Nat) ∉ c) (h0 : c ≠ []) (hh : ∀ x, c.head? = some x → x ≠ 0x20) (hl : ∀ x, c.getLast? = some x → x ≠ 0x20)
    (hmore : ∀ pre, yamlLines (pre ++ more) = yamlLines pre ++ ls)
    (hlead : keys ≠ [] → lead = [0x0a] ++ yIndent level) (harr : keys = [] → p = .array → lead = [])
    (hoth : keys = [] → p ≠ .array → (p = .root → level = 0) → lead = yIndent level) :
    MembersText p keys level (lead ++ (c ++ List.replicate j 0x20) ++ more) ((2 * level, c) :: ls) := by
  refine ⟨?_, ?_, ?_⟩
  · intro hk pre
    rw [hlead hk, show pre ++ ([0x0a] ++ yIndent level ++ (c ++ List.replicate j 0x20) ++ more)
        = (pre ++ [0x0a] ++ (yIndent level ++ c ++ List.replicate j 0x20)) ++ more by simp, hmore, yamlLines_nl, yIndent,
      yamlLines_line _ _ c hn h0 hh hl]
    simp
  · intro hk hp n e
    rw [harr hk hp, show List.replicate n 0x20 ++ [0x2d, 0x20] ++ ([] ++ (c ++ List.replicate j 0x20) ++ more)
        = (List.replicate n 0x20 ++ ([0x2d, 0x20] ++ c) ++ List.replicate j 0x20) ++ more by simp, hmore,
      yamlLines_line _ _ ([0x2d, 0x20] ++ c) (by simp [hn]) (by simp) (by simp) (by
        intro x hx
        rw [List.getLast?_append_of_ne_nil _ h0] at hx
        exact hl x hx)]
    simp [dashed]
  · intro hk hp hr
    rw [hoth hk hp hr, show yIndent level ++ (c ++ List.replicate j 0x20) ++ more = (yIndent level ++ c ++ List.replicate j 0x20) ++ more by simp,
      hmore, yIndent, yamlLines_line _ _ c hn h0 hh hl]
    simp

mutual
theorem members_text {p : YPlace} {keys : List PyStr} {calls : YObj} {ms : List (PyStr × Yaml)} (h : WritesMembers p keys calls ms) (level : Nat) :
    ∃ ls, BlockMembers (2 * level) ls ms ∧ MembersText p keys level (yWriteObj level (decide (p = .array)) keys calls) ls := by
  match h with
  | .nil =>
    refine ⟨[], .nil, ?_, ?_, ?_⟩
    · intro _ pre
      simp [yWriteObj]
    · intro _ _ n _
      have := yamlLines_line n 1 [0x2d] (by simp) (by simp) (by simp) (by simp)
      simpa [yWriteObj, dashed] using this
    · intro _ _ _
      rfl
  | .again hk hr =>
    obtain ⟨ls, hb, ht⟩ := members_text hr level
    refine ⟨ls, hb, ?_⟩
    rw [yWriteObj, if_pos hk]
    exact ht
  | @WritesMembers.scalar _ _ k t v rest ms hk hkey hv hr =>
    obtain ⟨ls, hb, ht⟩ := members_text hr level
    obtain ⟨c, j, e, hn, h0, hh, hl, hbm⟩ := scalar_line hkey hv hb
    refine ⟨_, hbm, ?_⟩
    rw [yWriteObj, if_neg hk, yAddKey_new hk, e]
    refine membersText_line hn h0 hh hl (ht.later (by simp)) ?_ ?_ ?_
    · intro hne
      rw [if_pos (by cases keys with | nil => exact absurd rfl hne | cons => simp)]
    · rintro rfl rfl
      simp
    · rintro rfl hp _
      simp [hp]
  | @WritesMembers.object _ _ k body rest ms' ms hk hkey hp hbody hr =>
    obtain ⟨ls, hb, ht⟩ := members_text hr level
    obtain ⟨ls', hb', ht'⟩ := members_text hbody (level + 1)
    obtain ⟨hn, h0, hh, hl⟩ := key_line hkey
    refine ⟨_, child_members hkey (by omega : 2 * level < 2 * (level + 1)) (asMap_block hb') hb, ?_⟩
    rw [yWriteObj, yAddKey_new hk]
    have e := membersText_line (p := p) (keys := keys) (level := level) (c := k ++ [0x3a]) (j := 0)
      (more := [0x0a] ++ yWriteObj (level + 1) false [] body ++ yWriteObj level (decide (p = .array)) (k :: keys) rest)
      (lead := if (k :: keys).length > 1 then [0x0a] ++ yIndent level else []) (ls := ls' ++ ls) hn h0 hh hl (by
        intro pre
        rw [← List.append_assoc, ht.later (by simp), ← List.append_assoc, yamlLines_nl]
        have := ht'.other rfl (by simp) (by simp)
        simp only [reduceCtorEq, decide_false] at this
        rw [this, List.append_assoc]) (by
        intro hne
        rw [if_pos (by cases keys with | nil => exact absurd rfl hne | cons => simp)]) (by
        rintro rfl _
        simp) (by
        rintro rfl hp2 hr0
        have hroot : p = .root := by cases p <;> simp_all
        simp [hr0 hroot, yIndent])
    simpa using e
  | @WritesMembers.array _ _ k body rest vs ms hk hkey hp hbody hr =>
    obtain ⟨ls, hb, ht⟩ := members_text hr level
    obtain ⟨ls', hb', _, ht'⟩ := items_text hbody (level + 1) 0
    obtain ⟨hn, h0, hh, hl⟩ := key_line hkey
    refine ⟨_, child_members hkey (by omega : 2 * level < 2 * (level + 1)) (asSeq_block hb') hb, ?_⟩
    rw [yWriteObj, yAddKey_new hk]
    have e := membersText_line (p := p) (keys := keys) (level := level) (c := k ++ [0x3a]) (j := 0)
      (more := [0x0a] ++ yWriteArr (level + 1) 0 body ++ yWriteObj level (decide (p = .array)) (k :: keys) rest)
      (lead := if (k :: keys).length > 1 then [0x0a] ++ yIndent level else yIndent level) (ls := ls' ++ ls) hn h0 hh hl (by
        intro pre
        rw [← List.append_assoc, ht.later (by simp), ← List.append_assoc, yamlLines_nl, ht' rfl, List.append_assoc]) (by
        intro hne
        rw [if_pos (by cases keys with | nil => exact absurd rfl hne | cons => simp)]) (by
        rintro rfl hpa
        exact absurd hpa (hp rfl)) (by
        rintro rfl hp2 hr0
        simp)
    simpa using e
theorem items_text {calls : YArr} {vs : List Yaml} (h : WritesItems calls vs) (level count : Nat) :
    ∃ ls, BlockItems (2 * level) ls vs ∧ (count > 0 → ∀ pre, yamlLines (pre ++ yWriteArr level count calls) = yamlLines pre ++ ls) ∧
      (count = 0 → yamlLines (yWriteArr level count calls) = ls) := by
  match h with
  | .nil => exact ⟨[], .nil, by intro _ pre; simp [yWriteArr], fun _ => rfl⟩
  | @WritesItems.scalar t rest vs hp hr =>
    obtain ⟨ls, hb, ht, _⟩ := items_text hr level (count + 1)
    obtain ⟨c0, r0, e0, _⟩ := hp.start
    have hline := yamlLines_line (2 * level) 0 ([0x2d, 0x20] ++ t) (by simpa using not_nl_mem hp.chars) (by simp) (by simp) (by
      intro x hx
      rw [List.getLast?_append_of_ne_nil _ (by simp [e0])] at hx
      rintro rfl
      exact hp.last.1 hx)
    simp only [List.replicate_zero, List.append_nil] at hline
    refine ⟨_, .scalar hp hb, ?_, ?_⟩
    · intro hc pre
      rw [yWriteArr, if_pos (by omega), ← List.append_assoc, ht (by omega),
        show pre ++ ([0x0a] ++ yIndent level ++ ([0x2d, 0x20] ++ t)) = pre ++ [0x0a] ++ (yIndent level ++ ([0x2d, 0x20] ++ t)) by simp,
        yamlLines_nl, yIndent, hline]
      simp [cp]
    · rintro rfl
      rw [yWriteArr, if_neg (by omega), ht (by omega), List.nil_append, yIndent, hline]
      simp [cp]
  | @WritesItems.empty rest vs hr =>
    obtain ⟨ls, hb, ht, _⟩ := items_text hr level (count + 1)
    have hline := yamlLines_line (2 * level) 1 [0x2d] (by simp) (by simp) (by simp) (by simp)
    refine ⟨_, .null hb, ?_, ?_⟩
    · intro hc pre
      rw [yWriteArr, if_pos (by omega), ← List.append_assoc, ht (by omega),
        show pre ++ ([0x0a] ++ yIndent level ++ ([0x2d, 0x20] ++ [])) = pre ++ [0x0a] ++ (yIndent level ++ [0x2d] ++ List.replicate 1 0x20) by simp,
        yamlLines_nl, yIndent, hline]
      simp [cp]
    · rintro rfl
      rw [yWriteArr, if_neg (by omega), ht (by omega), List.nil_append, yIndent,
        show List.replicate (2 * level) 0x20 ++ ([0x2d, 0x20] ++ []) = List.replicate (2 * level) 0x20 ++ [0x2d] ++ List.replicate 1 0x20 by simp,
        hline]
      simp [cp]
  | @WritesItems.object body rest ms vs hbody hr =>
    obtain ⟨ls, hb, ht, _⟩ := items_text hr level (count + 1)
    obtain ⟨ls', hb', hbt⟩ := members_text hbody (level + 1)
    have hline := hbt.inArray rfl rfl (2 * level) (by omega)
    simp only [decide_true] at hline
    refine ⟨_, dashed_items (n := 2 * level) (by simpa [Nat.mul_add] using hb') hb, ?_, ?_⟩
    · intro hc pre
      rw [yWriteArr, if_pos (by omega), ← List.append_assoc, ht (by omega),
        show pre ++ ([0x0a] ++ yIndent level ++ [0x2d, 0x20] ++ yWriteObj (level + 1) true [] body)
          = pre ++ [0x0a] ++ (yIndent level ++ [0x2d, 0x20] ++ yWriteObj (level + 1) true [] body) by simp,
        yamlLines_nl, yIndent, hline]
      simp
    · rintro rfl
      rw [yWriteArr, if_neg (by omega), ht (by omega), List.nil_append, yIndent, hline]
end

/-- **C84 (partial).** The file written by a tree of calls is a YAML document for the values written, if the calls write one. Missing: texts
that are not plain scalars, and the first calls left out by `WritesMembers` (see the counterexamples). -/
theorem yaml_writer_partial (calls : YObj) (ms : List (PyStr × Yaml)) (h : WritesMembers .root [] calls ms) (hne : ms ≠ []) :
    YamlText (yFile calls) (.map ms) := by
  obtain ⟨ls, hb, ht⟩ := members_text h 0
  have e := ht.other rfl (by simp) (by simp)
  rw [YamlText, yFile]
  simp only [reduceCtorEq, decide_false] at e
  rw [e]
  exact .map hb hne

/-! ### A text stands for one value -/

/-- What can follow a value in a flow collection. -/
def FlowStop (r : PyStr) : Prop := r = [] ∨ ∃ c r', r = c :: r' ∧ (c = 0x2c ∨ c = 0x5d ∨ c = 0x7d)

theorem flowPlain_char {c : Nat} (h : c ∉ cp " ,[]{}:#&*!|>'\"%@`?") : c ≠ 0x27 ∧ c ≠ 0x2c ∧ c ≠ 0x5b ∧ c ≠ 0x5d ∧ c ≠ 0x7b ∧ c ≠ 0x7d := by
  refine ⟨?_, ?_, ?_, ?_, ?_, ?_⟩ <;> (rintro rfl; exact h (by decide))

theorem flow_run {α : Type} {p : α → Prop} {a b r s : List α} (ha : ∀ c ∈ a, p c) (hb : ∀ c ∈ b, p c) (hr : ∀ c r', r = c :: r' → ¬ p c)
    (hs : ∀ c r', s = c :: r' → ¬ p c) (e : a ++ r = b ++ s) : a = b ∧ r = s := by
  induction a generalizing b with
  | nil =>
    cases b with
    | nil => exact ⟨rfl, e⟩
    | cons x b => exact absurd (hb x (by simp)) (hr x _ e)
  | cons x a ih =>
    cases b with
    | nil => exact absurd (ha x (by simp)) (hs x _ e.symm)
    | cons y b =>
      simp only [List.cons_append, List.cons.injEq] at e
      obtain ⟨rfl, e⟩ := e
      obtain ⟨rfl, rfl⟩ := ih (fun c hc => ha c (by simp [hc])) (fun c hc => hb c (by simp [hc])) e
      exact ⟨rfl, rfl⟩

theorem quoted_unique {a b r s : PyStr} (ha : Spec.SingleQuoted a) (hb : Spec.SingleQuoted b) (e : a ++ 0x27 :: r = b ++ 0x27 :: s) :
    a = b ∧ r = s := by
  obtain ⟨rfl, e⟩ := flow_run (p := fun c => c ≠ 0x27) (fun c hc => (ha c hc).2) (fun c hc => (hb c hc).2)
    (by rintro c r' ⟨⟩; simp) (by rintro c r' ⟨⟩; simp) e
  exact ⟨rfl, by simpa using e⟩

/-- The first character of a flow value. -/
inductive FlowHead : Nat → Yaml → Prop
  | plain {c s} : c ∉ cp " ,[]{}:#&*!|>'\"%@`?" → FlowHead c (.scalar s)
  | quoted {s} : FlowHead 0x27 (.scalar s)
  | seq {l} : FlowHead 0x5b (.seq l)
  | map {l} : FlowHead 0x7b (.map l)

theorem flow_head {t : PyStr} {v : Yaml} (h : Flow t v) : ∃ c r, t = c :: r ∧ FlowHead c v := by
  cases h with
  | plain hp =>
    cases t with
    | nil => exact absurd rfl hp.1
    | cons c r => exact ⟨c, r, rfl, .plain (hp.2 c (by simp)).2⟩
  | quoted hq => exact ⟨0x27, _, rfl, .quoted⟩
  | emptySeq => exact ⟨0x5b, _, rfl, .seq⟩
  | seq hi => exact ⟨0x5b, _, rfl, .seq⟩
  | map hm => exact ⟨0x7b, _, rfl, .map⟩

theorem flowItems_head {t : PyStr} {l : List Yaml} (h : FlowItems t l) : ∃ c r, t = c :: r ∧ c ≠ 0x5d := by
  have key : ∀ {t v}, Flow t v → ∃ c r, t = c :: r ∧ c ≠ 0x5d := by
    intro t v hf
    obtain ⟨c, r, e, hc⟩ := flow_head hf
    refine ⟨c, r, e, ?_⟩
    cases hc with
    | plain h => exact (flowPlain_char h).2.2.2.1
    | _ => decide
  cases h with
  | one hf => exact key hf
  | more hf _ =>
    obtain ⟨c, r, e, hc⟩ := key hf
    exact ⟨c, _, by rw [e]; rfl, hc⟩

mutual
theorem flow_unique {a b r s : PyStr} {x y : Yaml} (h : Flow a x) (h' : Flow b y) (hr : FlowStop r) (hs : FlowStop s) (e : a ++ r = b ++ s) :
    a = b ∧ x = y ∧ r = s := by
  have stop : ∀ {r : PyStr}, FlowStop r → ∀ c r', r = c :: r' → ¬ (c ∉ cp " ,[]{}:#&*!|>'\"%@`?") := by
    rintro r (rfl | ⟨c, r', rfl, hc⟩) d r2 e
    · simp at e
    · simp only [List.cons.injEq] at e
      rcases hc with rfl | rfl | rfl <;> (rw [← e.1]; decide)
  have hd : ∀ c r', a = c :: r' → ∃ q, b = c :: q := by
    rintro c r' rfl
    obtain ⟨d, q, e', _⟩ := flow_head h'
    rw [e', List.cons_append, List.cons_append, List.cons.injEq] at e
    exact ⟨q, by rw [e', e.1]⟩
  match h with
  | .plain hp =>
    cases h' with
    | plain hp' =>
      obtain ⟨rfl, rfl⟩ := flow_run (fun c hc => (hp.2 c hc).2) (fun c hc => (hp'.2 c hc).2) (stop hr) (stop hs) e
      exact ⟨rfl, rfl, rfl⟩
    | quoted _ | emptySeq | seq _ | map _ =>
      exfalso
      cases a with
      | nil => exact hp.1 rfl
      | cons c a' =>
        obtain ⟨q, e'⟩ := hd c a' rfl
        have := flowPlain_char (hp.2 c (by simp)).2
        simp [cp] at e'
        omega
  | @Flow.quoted u hq =>
    cases h' with
    | plain hp' =>
      obtain ⟨q, e'⟩ := hd 0x27 _ rfl
      exact absurd rfl (flowPlain_char (hp'.2 0x27 (by rw [e']; simp)).2).1
    | @quoted w hq' =>
      obtain ⟨rfl, rfl⟩ := quoted_unique (a := u) (b := w) (r := r) (s := s) hq hq' (by simpa [cp] using e)
      exact ⟨rfl, rfl, rfl⟩
    | emptySeq | seq _ | map _ =>
      obtain ⟨q, e'⟩ := hd 0x27 _ rfl
      simp [cp] at e'
  | .emptySeq =>
    cases h' with
    | plain hp' =>
      obtain ⟨q, e'⟩ := hd 0x5b _ rfl
      exact absurd rfl (flowPlain_char (hp'.2 0x5b (by rw [e']; simp)).2).2.2.1
    | quoted _ | map _ =>
      obtain ⟨q, e'⟩ := hd 0x5b _ rfl
      simp [cp] at e'
    | emptySeq =>
      refine ⟨rfl, rfl, by simpa [cp] using e⟩
    | seq hi =>
      exfalso
      obtain ⟨c, q, e', hc⟩ := flowItems_head hi
      simp [cp, e'] at e
      omega
  | @Flow.seq u l hi =>
    cases h' with
    | plain hp' =>
      obtain ⟨q, e'⟩ := hd 0x5b _ rfl
      exact absurd rfl (flowPlain_char (hp'.2 0x5b (by rw [e']; simp)).2).2.2.1
    | quoted _ | map _ =>
      obtain ⟨q, e'⟩ := hd 0x5b _ rfl
      simp [cp] at e'
    | emptySeq =>
      exfalso
      obtain ⟨c, q, e', hc⟩ := flowItems_head hi
      simp [cp, e'] at e
      omega
    | @seq w l' hi' =>
      obtain ⟨rfl, rfl, rfl⟩ := flowItems_unique (a := u) (b := w) (r := r) (s := s) hi hi' (by simpa [cp] using e)
      exact ⟨rfl, rfl, rfl⟩
  | @Flow.map u l hm =>
    cases h' with
    | plain hp' =>
      obtain ⟨q, e'⟩ := hd 0x7b _ rfl
      exact absurd rfl (flowPlain_char (hp'.2 0x7b (by rw [e']; simp)).2).2.2.2.2.1
    | quoted _ | emptySeq | seq _ =>
      obtain ⟨q, e'⟩ := hd 0x7b _ rfl
      simp [cp] at e'
    | @map w l' hm' =>
      obtain ⟨rfl, rfl, rfl⟩ := flowMembers_unique (a := u) (b := w) (r := r) (s := s) hm hm' (by simpa [cp] using e)
      exact ⟨rfl, rfl, rfl⟩
theorem flowItems_unique {a b r s : PyStr} {x y : List Yaml} (h : FlowItems a x) (h' : FlowItems b y) (e : a ++ 0x5d :: r = b ++ 0x5d :: s) :
    a = b ∧ x = y ∧ r = s := by
  match h with
  | .one hf =>
    cases h' with
    | one hf' =>
      obtain ⟨rfl, rfl, e'⟩ := flow_unique hf hf' (.inr ⟨_, _, rfl, by simp⟩) (.inr ⟨_, _, rfl, by simp⟩) e
      exact ⟨rfl, rfl, by simpa using e'⟩
    | more hf' hi' =>
      obtain ⟨rfl, rfl, e'⟩ := flow_unique (r := 0x5d :: r) (s := 0x2c :: 0x20 :: _) hf hf' (.inr ⟨_, _, rfl, by simp⟩)
        (.inr ⟨_, _, rfl, by simp⟩) (by simpa [cp, List.append_assoc] using e)
      simp at e'
  | .more hf hi =>
    cases h' with
    | one hf' =>
      obtain ⟨rfl, rfl, e'⟩ := flow_unique (r := 0x2c :: 0x20 :: _) (s := 0x5d :: s) hf hf' (.inr ⟨_, _, rfl, by simp⟩)
        (.inr ⟨_, _, rfl, by simp⟩) (by simpa [cp, List.append_assoc] using e)
      simp at e'
    | more hf' hi' =>
      obtain ⟨rfl, rfl, e'⟩ := flow_unique (r := 0x2c :: 0x20 :: _) (s := 0x2c :: 0x20 :: _) hf hf' (.inr ⟨_, _, rfl, by simp⟩)
        (.inr ⟨_, _, rfl, by simp⟩) (by simpa [cp, List.append_assoc] using e)
      simp only [List.cons.injEq, true_and] at e'
      obtain ⟨rfl, rfl, rfl⟩ := flowItems_unique hi hi' e'
      exact ⟨rfl, rfl, rfl⟩
theorem flowMembers_unique {a b r s : PyStr} {x y : List (PyStr × Yaml)} (h : FlowMembers a x) (h' : FlowMembers b y)
    (e : a ++ 0x7d :: r = b ++ 0x7d :: s) : a = b ∧ x = y ∧ r = s := by
  match h with
  | .one hk hf =>
    cases h' with
    | one hk' hf' =>
      obtain ⟨rfl, e'⟩ := quoted_unique hk hk' (by simpa [cp, List.append_assoc] using e)
      simp only [List.cons.injEq, true_and] at e'
      obtain ⟨rfl, rfl, e'⟩ := flow_unique hf hf' (.inr ⟨_, _, rfl, by simp⟩) (.inr ⟨_, _, rfl, by simp⟩) e'
      exact ⟨rfl, rfl, by simpa using e'⟩
    | more hk' hf' hm' =>
      obtain ⟨rfl, e'⟩ := quoted_unique hk hk' (by simpa [cp, List.append_assoc] using e)
      simp only [List.cons.injEq, true_and] at e'
      obtain ⟨rfl, rfl, e'⟩ := flow_unique (s := _ :: _) hf hf' (.inr ⟨_, _, rfl, by simp⟩) (.inr ⟨_, _, rfl, by simp⟩) e'
      simp at e'
  | .more hk hf hm =>
    cases h' with
    | one hk' hf' =>
      obtain ⟨rfl, e'⟩ := quoted_unique hk hk' (by simpa [cp, List.append_assoc] using e)
      simp only [List.cons.injEq, true_and] at e'
      obtain ⟨rfl, rfl, e'⟩ := flow_unique (r := _ :: _) hf hf' (.inr ⟨_, _, rfl, by simp⟩) (.inr ⟨_, _, rfl, by simp⟩) e'
      simp at e'
    | more hk' hf' hm' =>
      obtain ⟨rfl, e'⟩ := quoted_unique hk hk' (by simpa [cp, List.append_assoc] using e)
      simp only [List.cons.injEq, true_and] at e'
      obtain ⟨rfl, rfl, e'⟩ := flow_unique (r := 0x2c :: 0x20 :: _) (s := 0x2c :: 0x20 :: _) hf hf' (.inr ⟨_, _, rfl, by simp⟩)
        (.inr ⟨_, _, rfl, by simp⟩) e'
      simp only [List.cons.injEq, true_and] at e'
      obtain ⟨rfl, rfl, rfl⟩ := flowMembers_unique hm hm' e'
      exact ⟨rfl, rfl, rfl⟩
end

mutual
theorem block_indent {n : Nat} {ls : List (Nat × PyStr)} {v : Yaml} (h : Block n ls v) :
    (∃ c r, ls = (n, c) :: r) ∧ ∀ l ∈ ls, n ≤ l.1 := by
  match h with
  | .map hm hne =>
    obtain ⟨a, b⟩ := members_indent hm
    refine ⟨?_, b⟩
    rcases a with ⟨rfl, e⟩ | a
    · exact absurd e hne
    · exact a
  | .seq hi hne =>
    obtain ⟨a, b⟩ := items_indent hi
    refine ⟨?_, b⟩
    rcases a with ⟨rfl, e⟩ | a
    · exact absurd e hne
    · exact a
theorem members_indent {n : Nat} {ls : List (Nat × PyStr)} {ms : List (PyStr × Yaml)} (h : BlockMembers n ls ms) :
    ((ls = [] ∧ ms = []) ∨ ∃ c r, ls = (n, c) :: r) ∧ ∀ l ∈ ls, n ≤ l.1 := by
  match h with
  | .nil => exact ⟨.inl ⟨rfl, rfl⟩, by simp⟩
  | .scalar _ _ hr | .flow _ _ hr | .null _ hr =>
    refine ⟨.inr ⟨_, _, rfl⟩, ?_⟩
    intro l hl
    rcases List.mem_cons.1 hl with rfl | hl
    · exact Nat.le_refl _
    · exact (members_indent hr).2 l hl
  | .block _ hm hb hr =>
    refine ⟨.inr ⟨_, _, rfl⟩, ?_⟩
    intro l hl
    rcases List.mem_cons.1 hl with rfl | hl
    · exact Nat.le_refl _
    · rcases List.mem_append.1 hl with hl | hl
      · have := (block_indent hb).2 l hl
        omega
      · exact (members_indent hr).2 l hl
theorem items_indent {n : Nat} {ls : List (Nat × PyStr)} {vs : List Yaml} (h : BlockItems n ls vs) :
    ((ls = [] ∧ vs = []) ∨ ∃ c r, ls = (n, c) :: r) ∧ ∀ l ∈ ls, n ≤ l.1 := by
  match h with
  | .nil => exact ⟨.inl ⟨rfl, rfl⟩, by simp⟩
  | .scalar _ hr | .null hr =>
    refine ⟨.inr ⟨_, _, rfl⟩, ?_⟩
    intro l hl
    rcases List.mem_cons.1 hl with rfl | hl
    · exact Nat.le_refl _
    · exact (items_indent hr).2 l hl
  | .block hb hr =>
    refine ⟨.inr ⟨_, _, rfl⟩, ?_⟩
    intro l hl
    rcases List.mem_cons.1 hl with rfl | hl
    · exact Nat.le_refl _
    · rcases List.mem_append.1 hl with hl | hl
      · have := (block_indent hb).2 l (by simp [hl])
        omega
      · exact (items_indent hr).2 l hl
end

/-- The lines of a child are those with a greater indentation. -/
theorem child_split {n : Nat} {sub sub' rest rest' : List (Nat × PyStr)} (h : ∀ l ∈ sub, n < l.1) (h' : ∀ l ∈ sub', n < l.1)
    (hr : rest = [] ∨ ∃ c r, rest = (n, c) :: r) (hr' : rest' = [] ∨ ∃ c r, rest' = (n, c) :: r) (e : sub ++ rest = sub' ++ rest') :
    sub = sub' ∧ rest = rest' := by
  have st : ∀ {rest : List (Nat × PyStr)}, (rest = [] ∨ ∃ c r, rest = (n, c) :: r) → ∀ l r', rest = l :: r' → ¬ n < l.1 := by
    rintro rest (rfl | ⟨c, r, rfl⟩) l r' e
    · simp at e
    · simp only [List.cons.injEq] at e
      simp [← e.1]
  exact flow_run (p := fun l : Nat × PyStr => n < l.1) h h' (st hr) (st hr') e

theorem members_rest {n : Nat} {ls : List (Nat × PyStr)} {ms : List (PyStr × Yaml)} (h : BlockMembers n ls ms) :
    ls = [] ∨ ∃ c r, ls = (n, c) :: r := (members_indent h).1.imp_left And.left

theorem items_rest {n : Nat} {ls : List (Nat × PyStr)} {vs : List Yaml} (h : BlockItems n ls vs) :
    ls = [] ∨ ∃ c r, ls = (n, c) :: r := (items_indent h).1.imp_left And.left

/-- The key of a member ends at its first colon. -/
theorem key_unique {k k' x x' : PyStr} (hk : YamlKey k) (hk' : YamlKey k') (e : k ++ 0x3a :: x = k' ++ 0x3a :: x') : k = k' ∧ x = x' := by
  obtain ⟨rfl, e⟩ := flow_run (p := fun c : Nat => c ≠ 0x3a) (fun c hc => (key_chars hk c hc).2) (fun c hc => (key_chars hk' c hc).2)
    (by rintro c r' ⟨⟩; simp) (by rintro c r' ⟨⟩; simp) e
  exact ⟨rfl, by simpa using e⟩

theorem key_start {k x : PyStr} (hk : YamlKey k) : ∃ c r, k ++ x = c :: r ∧ c ≠ 0x2d := by
  obtain ⟨h0, _⟩ := id hk
  cases k with
  | nil => exact absurd rfl h0
  | cons c r =>
    have := key_chars hk c (by simp)
    exact ⟨c, r ++ x, rfl, by omega⟩

theorem members_first {n : Nat} {l : Nat × PyStr} {r : List (Nat × PyStr)} {ms : List (PyStr × Yaml)} {ls : List (Nat × PyStr)}
    (h : BlockMembers n ls ms) (e : ls = l :: r) : ∃ c q, l.2 = c :: q ∧ c ≠ 0x2d := by
  cases h with
  | nil => simp at e
  | scalar hk _ _ =>
    simp only [List.cons.injEq] at e
    rw [← e.1]
    simpa only [List.append_assoc] using key_start hk
  | flow hk _ _ =>
    simp only [List.cons.injEq] at e
    rw [← e.1]
    simpa only [List.append_assoc] using key_start hk
  | null hk _ =>
    simp only [List.cons.injEq] at e
    rw [← e.1]
    exact key_start hk
  | block hk _ _ _ =>
    simp only [List.cons.injEq] at e
    rw [← e.1]
    exact key_start hk

theorem items_first {n : Nat} {l : Nat × PyStr} {r : List (Nat × PyStr)} {vs : List Yaml} {ls : List (Nat × PyStr)}
    (h : BlockItems n ls vs) (e : ls = l :: r) : ∃ q, l.2 = 0x2d :: q ∧ (q = [] ∨ ∃ q', q = 0x20 :: q') := by
  cases h with
  | nil => simp at e
  | scalar _ _ =>
    simp only [List.cons.injEq] at e
    rw [← e.1]
    exact ⟨_, rfl, .inr ⟨_, rfl⟩⟩
  | null _ =>
    simp only [List.cons.injEq] at e
    rw [← e.1]
    exact ⟨_, rfl, .inl rfl⟩
  | block _ _ =>
    simp only [List.cons.injEq] at e
    rw [← e.1]
    exact ⟨_, rfl, .inr ⟨_, rfl⟩⟩

/-- The first line of a collection is not a plain scalar. -/
theorem block_not_plain {n : Nat} {t : PyStr} {sub : List (Nat × PyStr)} {v : Yaml} (h : Block n ((n, t) :: sub) v) : ¬ Plain t := by
  intro hp
  cases h with
  | seq hi _ =>
    obtain ⟨q, e, hq⟩ := items_first hi rfl
    obtain ⟨c, r, e', _, _, hd⟩ := hp.start
    simp only at e
    rw [e] at e'
    simp only [List.cons.injEq] at e'
    obtain ⟨rfl, rfl⟩ := e'
    obtain ⟨d, r', e2, hd2⟩ := hd (by decide)
    rcases hq with rfl | ⟨q', rfl⟩
    · simp at e2
    · simp only [List.cons.injEq] at e2
      exact hd2 (e2.1.symm)
  | map hm _ =>
    generalize hls : (n, t) :: sub = ls at hm
    cases hm with
    | nil => simp at hls
    | scalar _ _ _ =>
      simp only [List.cons.injEq, Prod.mk.injEq, true_and] at hls
      exact hp.colon ⟨_, _, by rw [hls.1]⟩
    | flow _ _ _ =>
      simp only [List.cons.injEq, Prod.mk.injEq, true_and] at hls
      exact hp.colon ⟨_, _, by rw [hls.1]⟩
    | null _ _ =>
      simp only [List.cons.injEq, Prod.mk.injEq, true_and] at hls
      refine hp.last.2 ?_
      rw [hls.1, List.getLast?_append_of_ne_nil _ (by simp [cp])]
      rfl
    | block _ _ _ _ =>
      simp only [List.cons.injEq, Prod.mk.injEq, true_and] at hls
      refine hp.last.2 ?_
      rw [hls.1, List.getLast?_append_of_ne_nil _ (by simp [cp])]
      rfl

theorem plain_not_flow {s : PyStr} {v : Yaml} (hp : Plain s) (hf : FlowSeq s v) : False := by
  obtain ⟨u, e⟩ := flowSeq_form hf
  obtain ⟨c, r, e', _, hc, _⟩ := hp.start
  rw [e, List.cons.injEq] at e'
  rw [← e'.1] at hc
  exact hc (by decide)

theorem plain_ne {s : PyStr} (hp : Plain s) : s ≠ [] := by
  obtain ⟨c, r, e, _⟩ := hp.start
  simp [e]

theorem flowSeq_unique {t : PyStr} {v v' : Yaml} (h : FlowSeq t v) (h' : FlowSeq t v') : v = v' :=
  (flow_unique (r := []) (s := []) h.1 h'.1 (.inl rfl) (.inl rfl) rfl).2.1

mutual
theorem block_unique {n n' : Nat} {ls ls' : List (Nat × PyStr)} {v v' : Yaml} (h : Block n ls v) (h' : Block n' ls' v') (e : ls = ls') : v = v' := by
  have en : n = n' := by
    obtain ⟨c, r, e1⟩ := (block_indent h).1
    obtain ⟨c', r', e2⟩ := (block_indent h').1
    rw [e1, e2] at e
    simp only [List.cons.injEq, Prod.mk.injEq] at e
    exact e.1.1
  subst en
  obtain ⟨c0, r0, e0⟩ := (block_indent h).1
  match h with
  | .map hm _ =>
    cases h' with
    | map hm' _ => rw [members_unique' hm hm' e]
    | seq hi' _ =>
      obtain ⟨x, q, e1, hx⟩ := members_first hm e0
      obtain ⟨q', e2, _⟩ := items_first hi' (e.symm.trans e0)
      rw [e1, List.cons.injEq] at e2
      exact absurd e2.1 hx
  | .seq hi _ =>
    cases h' with
    | map hm' _ =>
      obtain ⟨x, q, e1, hx⟩ := members_first hm' (e.symm.trans e0)
      obtain ⟨q', e2, _⟩ := items_first hi e0
      rw [e1, List.cons.injEq] at e2
      exact absurd e2.1 hx
    | seq hi' _ => rw [items_unique' hi hi' e]
theorem members_unique' {n : Nat} {ls ls' : List (Nat × PyStr)} {ms ms' : List (PyStr × Yaml)} (h : BlockMembers n ls ms)
    (h' : BlockMembers n ls' ms') (e : ls = ls') : ms = ms' := by
  match h with
  | .nil =>
    cases h' with
    | nil => rfl
    | _ => simp at e
  | @BlockMembers.scalar _ k s rest ms hk hs hr =>
    cases h' with
    | nil => simp at e
    | scalar hk' hs' hr' =>
      simp only [List.cons.injEq, Prod.mk.injEq, true_and] at e
      obtain ⟨rfl, e1⟩ := key_unique hk hk' (by simpa [cp] using e.1)
      simp only [List.cons.injEq, true_and] at e1
      rw [e1, members_unique' hr hr' e.2]
    | flow hk' hf' hr' =>
      simp only [List.cons.injEq, Prod.mk.injEq, true_and] at e
      obtain ⟨rfl, e1⟩ := key_unique hk hk' (by simpa [cp] using e.1)
      simp only [List.cons.injEq, true_and] at e1
      subst e1
      exact (plain_not_flow hs hf').elim
    | null hk' hr' =>
      simp only [List.cons.injEq, Prod.mk.injEq, true_and] at e
      obtain ⟨rfl, e1⟩ := key_unique (x' := []) hk hk' (by simpa [cp] using e.1)
      simp at e1
    | block hk' hm' hb' hr' =>
      simp only [List.cons.injEq, Prod.mk.injEq, true_and] at e
      obtain ⟨rfl, e1⟩ := key_unique (x' := []) hk hk' (by simpa [cp] using e.1)
      simp at e1
  | @BlockMembers.flow _ k t v rest ms hk hf hr =>
    cases h' with
    | nil => simp at e
    | scalar hk' hs' hr' =>
      simp only [List.cons.injEq, Prod.mk.injEq, true_and] at e
      obtain ⟨rfl, e1⟩ := key_unique hk hk' (by simpa [cp] using e.1)
      simp only [List.cons.injEq, true_and] at e1
      subst e1
      exact (plain_not_flow hs' hf).elim
    | flow hk' hf' hr' =>
      simp only [List.cons.injEq, Prod.mk.injEq, true_and] at e
      obtain ⟨rfl, e1⟩ := key_unique hk hk' (by simpa [cp] using e.1)
      simp only [List.cons.injEq, true_and] at e1
      subst e1
      rw [flowSeq_unique hf hf', members_unique' hr hr' e.2]
    | null hk' hr' =>
      simp only [List.cons.injEq, Prod.mk.injEq, true_and] at e
      obtain ⟨rfl, e1⟩ := key_unique (x' := []) hk hk' (by simpa [cp] using e.1)
      simp at e1
    | block hk' hm' hb' hr' =>
      simp only [List.cons.injEq, Prod.mk.injEq, true_and] at e
      obtain ⟨rfl, e1⟩ := key_unique (x' := []) hk hk' (by simpa [cp] using e.1)
      simp at e1
  | @BlockMembers.null _ k rest ms hk hr =>
    cases h' with
    | nil => simp at e
    | scalar hk' hs' hr' =>
      simp only [List.cons.injEq, Prod.mk.injEq, true_and] at e
      obtain ⟨rfl, e1⟩ := key_unique (x := []) hk hk' (by simpa [cp] using e.1)
      simp at e1
    | flow hk' hf' hr' =>
      simp only [List.cons.injEq, Prod.mk.injEq, true_and] at e
      obtain ⟨rfl, e1⟩ := key_unique (x := []) hk hk' (by simpa [cp] using e.1)
      simp at e1
    | null hk' hr' =>
      simp only [List.cons.injEq, Prod.mk.injEq, true_and] at e
      obtain ⟨rfl, e1⟩ := key_unique (x := []) (x' := []) hk hk' (by simpa [cp] using e.1)
      rw [members_unique' hr hr' e.2]
    | block hk' hm' hb' hr' =>
      exfalso
      simp only [List.cons.injEq, Prod.mk.injEq, true_and] at e
      obtain ⟨c, r, e1⟩ := (block_indent hb').1
      rcases members_rest hr with e2 | ⟨c2, r2, e2⟩
      · simp [e1, e2] at e
      · simp [e1, e2] at e
        omega
  | @BlockMembers.block _ m k sub v rest ms hk hm hb hr =>
    cases h' with
    | nil => simp at e
    | scalar hk' hs' hr' =>
      simp only [List.cons.injEq, Prod.mk.injEq, true_and] at e
      obtain ⟨rfl, e1⟩ := key_unique (x := []) hk hk' (by simpa [cp] using e.1)
      simp at e1
    | flow hk' hf' hr' =>
      simp only [List.cons.injEq, Prod.mk.injEq, true_and] at e
      obtain ⟨rfl, e1⟩ := key_unique (x := []) hk hk' (by simpa [cp] using e.1)
      simp at e1
    | null hk' hr' =>
      exfalso
      simp only [List.cons.injEq, Prod.mk.injEq, true_and] at e
      obtain ⟨c, r, e1⟩ := (block_indent hb).1
      rcases members_rest hr' with e2 | ⟨c2, r2, e2⟩
      · simp [e1, e2] at e
      · simp [e1, e2] at e
        omega
    | block hk' hm' hb' hr' =>
      simp only [List.cons.injEq, Prod.mk.injEq, true_and] at e
      obtain ⟨rfl, e1⟩ := key_unique (x := []) (x' := []) hk hk' (by simpa [cp] using e.1)
      obtain ⟨e2, e3⟩ := child_split (n := n) (fun l hl => by have := (block_indent hb).2 l hl; omega)
        (fun l hl => by have := (block_indent hb').2 l hl; omega) (members_rest hr) (members_rest hr') e.2
      rw [block_unique hb hb' e2, members_unique' hr hr' e3]
theorem items_unique' {n : Nat} {ls ls' : List (Nat × PyStr)} {vs vs' : List Yaml} (h : BlockItems n ls vs)
    (h' : BlockItems n ls' vs') (e : ls = ls') : vs = vs' := by
  match h with
  | .nil =>
    cases h' with
    | nil => rfl
    | _ => simp at e
  | @BlockItems.scalar _ s rest vs hs hr =>
    cases h' with
    | nil => simp at e
    | scalar hs' hr' =>
      simp only [List.cons.injEq, Prod.mk.injEq, true_and, List.append_cancel_left_eq] at e
      rw [e.1, items_unique' hr hr' e.2]
    | null hr' => simp [cp] at e
    | block hb' hr' =>
      simp only [List.cons.injEq, Prod.mk.injEq, true_and, List.append_cancel_left_eq] at e
      obtain ⟨rfl, _⟩ := e
      exact absurd hs (block_not_plain hb')
  | @BlockItems.null _ rest vs hr =>
    cases h' with
    | nil => simp at e
    | scalar hs' hr' => simp [cp] at e
    | null hr' =>
      simp only [List.cons.injEq, true_and] at e
      rw [items_unique' hr hr' e]
    | block hb' hr' => simp [cp] at e
  | @BlockItems.block _ t sub v rest vs hb hr =>
    cases h' with
    | nil => simp at e
    | scalar hs' hr' =>
      simp only [List.cons.injEq, Prod.mk.injEq, true_and, List.append_cancel_left_eq] at e
      obtain ⟨rfl, _⟩ := e
      exact absurd hs' (block_not_plain hb)
    | null hr' => simp [cp] at e
    | block hb' hr' =>
      simp only [List.cons.injEq, Prod.mk.injEq, true_and, List.append_cancel_left_eq] at e
      obtain ⟨rfl, e⟩ := e
      obtain ⟨e2, e3⟩ := child_split (n := n) (fun l hl => by have := (block_indent hb).2 l (by simp [hl]); omega)
        (fun l hl => by have := (block_indent hb').2 l (by simp [hl]); omega) (items_rest hr) (items_rest hr') e
      rw [block_unique hb hb' (by rw [e2]), items_unique' hr hr' e3]
end

/-- A text is a YAML document for at most one value. -/
theorem yaml_unique (t : PyStr) (v v' : Yaml) (h : YamlText t v) (h' : YamlText t v') : v = v' := block_unique h h' rfl

/-- **C84.** What was written can be read back in no other way. -/
theorem yaml_recovered_partial (calls : YObj) (ms : List (PyStr × Yaml)) (h : WritesMembers .root [] calls ms) (hne : ms ≠ []) (v : Yaml) :
    YamlText (yFile calls) v ↔ v = .map ms :=
  ⟨fun hv => yaml_unique _ _ _ hv (yaml_writer_partial calls ms h hne), fun e => e ▸ yaml_writer_partial calls ms h hne⟩

/-! ### The hypotheses are met, and what does not hold -/

theorem plain_one : Plain (cp "1") :=
  ⟨fun c hc => yamlChar_of ((by decide : ∀ c ∈ cp "1", 0x20 ≤ c ∧ c ≤ 0x7e) c hc), ⟨_, _, rfl, by decide, by decide,
    fun h => absurd h (by decide)⟩, by decide, by decide, by decide⟩

/-- A key word. -/
theorem yamlKey_a : YamlKey (cp "a") ∧ YamlKey (cp "b") ∧ YamlKey (cp "c") :=
  ⟨⟨by decide, by decide⟩, ⟨by decide, by decide⟩, ⟨by decide, by decide⟩⟩

/-- `{a: 1, b: {c: 1}, c: [1, {a: null}]}`. -/
example : YamlText (yFile (.write (cp "a") (cp "1") (.object (cp "b") (.write (cp "c") (cp "1") .nil)
    (.array (cp "c") (.write (cp "1") (.object (.write (cp "a") [] .nil) .nil)) .nil))))
    (.map [(cp "a", .scalar (cp "1")), (cp "b", .map [(cp "c", .scalar (cp "1"))]), (cp "c", .seq [.scalar (cp "1"), .map [(cp "a", .null)]])]) := by
  obtain ⟨ka, kb, kc⟩ := yamlKey_a
  refine yaml_writer_partial _ _ (.scalar (by simp) ka (.plain plain_one) (.object (by decide) kb (by simp)
    (.scalar (by simp) kc (.plain plain_one) .nil) (.array (by decide) kc (by simp)
      (.scalar plain_one (.object (.scalar (by simp) ka .empty .nil) .nil)) .nil))) (by simp)

/-- `with yaml.object('a') as a: with a.object('b') as b: b.write('c', 1)` writes `b` beside `a`, not in it: the first object in an object is
not indented. -/
theorem yaml_nested_object_counterexample :
    YamlText (yFile (.object (cp "a") (.object (cp "b") (.write (cp "c") (cp "1") .nil) .nil) .nil))
      (.map [(cp "a", .null), (cp "b", .map [(cp "c", .scalar (cp "1"))])]) := by
  obtain ⟨ka, kb, kc⟩ := yamlKey_a
  have e : yamlLines (yFile (.object (cp "a") (.object (cp "b") (.write (cp "c") (cp "1") .nil) .nil) .nil)) =
      [(0, cp "a:"), (0, cp "b:"), (4, cp "c: 1")] := by decide +kernel
  rw [YamlText, e]
  exact .map (.null ka (.block (m := 4) (sub := [(4, cp "c: 1")]) (rest := []) kb (by omega)
    (.map (.scalar kc plain_one .nil) (by simp)) .nil)) (by simp)

end Pdf
