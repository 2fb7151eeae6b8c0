import Verif.Model.ToUnicode
import Verif.Spec.ToUnicode
import Verif.Props.StackParser
import Verif.Props.Tokenizer
import Verif.Props.XrefStream
import Verif.Props.Text
import Mathlib.Tactic.NormNum
/-! C46: `ToUnicode` maps. -/

namespace Pdf
open Spec (beValue BfEntry advance toBe TextOfCode BfChars BfRanges CMapText cmapDialect cmapWords brackets Writes WritesSeq ascii)

/-! ### What an entry does to the map -/

/-- Stores a text for each code. -/
def putTexts (m : CodeMap) (l : List (Nat × Bytes)) : CodeMap := l.foldl (fun m e => dictSet m (e.1 : Int) (utf16be e.2)) m

/-- The codes and texts of an entry. -/
def BfEntry.pairs : BfEntry → List (Nat × Bytes)
  | .char src dst => [(beValue src, dst)]
  | .range lo hi dst => (List.range (beValue hi + 1 - beValue lo)).map fun i => (beValue lo + i, advance dst i)
  | .list lo hi dsts => (List.range (beValue hi + 1 - beValue lo)).map fun i => (beValue lo + i, dsts.getD i [])

/-- The operands that write an entry. -/
def BfEntry.operands : BfEntry → List Obj
  | .char src dst => [.str src, .str dst]
  | .range lo hi dst => [.str lo, .str hi, .str dst]
  | .list lo hi dsts => [.str lo, .str hi, .arr (dsts.map .str)]

theorem nunpack_be {s : Bytes} (h1 : 1 ≤ s.length) (h4 : s.length ≤ 4) : nunpack s = .ok (beValue s) := by
  rw [nunpack_width (by unfold Width; omega), if_neg]
  rintro rfl; simp at h1

theorem lastBytes_pack {k n : Nat} (h1 : 1 ≤ k) (h4 : k ≤ 4) (hn : n < 256 ^ k) : ∃ p, packL n = .ok p ∧ lastBytes k p = toBe k n := by
  have h32 : n < 4294967296 := by
    have : 256 ^ k ≤ 256 ^ 4 := Nat.pow_le_pow_right (by norm_num) h4
    omega
  refine ⟨_, by rw [packL, if_pos h32], ?_⟩
  have e : ∀ a b : Nat, a % 256 = b % 256 → UInt8.ofNat a = UInt8.ofNat b := by
    intro a b h
    apply UInt8.toNat_inj.1
    simp only [UInt8.toNat_ofNat']
    exact h
  have hk : k = 1 ∨ k = 2 ∨ k = 3 ∨ k = 4 := by omega
  rcases hk with rfl | rfl | rfl | rfl
  · simp [lastBytes, toBe]
  · simp only [lastBytes, toBe, pow_zero, pow_one]
    norm_num
    apply e; omega
  · simp only [lastBytes, toBe, pow_zero, pow_one]
    norm_num
    refine ⟨?_, ?_⟩ <;> apply e <;> omega
  · simp only [lastBytes, toBe, pow_zero, pow_one]
    norm_num
    refine ⟨?_, ?_, ?_⟩ <;> apply e <;> omega

theorem bfStrLoop_put {s1 base vlen : Nat} {pre : Bytes} (h1 : 1 ≤ vlen) (h4 : vlen ≤ 4) (i n : Nat) (m : CodeMap)
    (hn : base + (i + n - 1) < 256 ^ vlen ∨ n = 0) :
    bfStrLoop s1 base vlen pre i n m =
      .ok (putTexts m ((List.range n).map fun j => (s1 + (i + j), pre ++ toBe vlen (base + (i + j))))) := by
  induction n generalizing i m with
  | zero => rfl
  | succ n ih =>
    obtain ⟨p, hp, hl⟩ := lastBytes_pack (n := base + i) h1 h4 (by omega)
    rw [bfStrLoop, hp]
    simp only
    rw [ih (i + 1) _ (by omega), List.range_succ_eq_map, List.map_cons, List.map_map]
    simp only [putTexts, List.foldl_cons, hl, Nat.add_zero]
    congr 3
    funext j
    simp only [Function.comp, Nat.succ_eq_add_one]
    rw [show i + (j + 1) = i + 1 + j by omega]

theorem bfListLoop_put {g : PyStr → Option PyStr} {s1 : Nat} {ds : List Bytes} (i n : Nat) (m : CodeMap) (hn : i + n ≤ ds.length) :
    bfListLoop g s1 (ds.map .str) i n m = .ok (putTexts m ((List.range n).map fun j => (s1 + (i + j), ds.getD (i + j) []))) := by
  induction n generalizing i m with
  | zero => rfl
  | succ n ih =>
    have hi : i < ds.length := by omega
    have hg : (ds.map Obj.str)[i]? = some (.str ds[i]) := by simp [hi]
    rw [bfListLoop, hg]
    simp only [addCid2unichr]
    rw [ih (i + 1) _ (by omega), List.range_succ_eq_map, List.map_cons, List.map_map]
    have hd : ds.getD i [] = ds[i] := by simp [hi]
    simp only [putTexts, List.foldl_cons, Nat.add_zero, hd]
    congr 3
    funext j
    simp only [Function.comp, Nat.succ_eq_add_one]
    rw [show i + (j + 1) = i + 1 + j by omega]

theorem bfRangeEntry_put {g : PyStr → Option PyStr} {m : CodeMap} {lo hi dst : Bytes} (h : (BfEntry.range lo hi dst).Sane) :
    bfRangeEntry g m (.str lo) (.str hi) (.str dst) = .ok (putTexts m (BfEntry.pairs (.range lo hi dst))) := by
  obtain ⟨h1, h4, hl, hne, ho⟩ := h
  have hpos : 0 < dst.length := List.length_pos_iff.2 hne
  simp only [bfRangeEntry, hl, nunpack_be h1 h4, nunpack_be (s := hi) (by omega) (by omega)]
  have hv : lastBytes 4 dst = dst.drop (dst.length - 4) := by simp [lastBytes]
  have hvl : (dst.drop (dst.length - 4)).length = min 4 dst.length := by rw [List.length_drop]; omega
  rw [hv, nunpack_be (by omega) (by omega), hvl]
  simp only [ne_eq, not_true_eq_false, ↓reduceIte]
  rw [bfStrLoop_put (by omega) (by omega) 0 _ _ (by omega)]
  simp only [BfEntry.pairs, advance, Nat.zero_add]

theorem bfListEntry_put {g : PyStr → Option PyStr} {m : CodeMap} {lo hi : Bytes} {dsts : List Bytes} (h : (BfEntry.list lo hi dsts).Sane) :
    bfRangeEntry g m (.str lo) (.str hi) (.arr (dsts.map .str)) = .ok (putTexts m (BfEntry.pairs (.list lo hi dsts))) := by
  obtain ⟨h1, h4, hl, ho⟩ := h
  simp only [bfRangeEntry, hl, nunpack_be h1 h4, nunpack_be (s := hi) (by omega) (by omega)]
  simp only [ne_eq, not_true_eq_false, ↓reduceIte]
  rw [bfListLoop_put 0 _ _ (by omega)]
  simp only [BfEntry.pairs, Nat.zero_add]

theorem bfChars_put {g : PyStr → Option PyStr} {mid : List Tok} {es : List BfEntry} (h : BfChars mid es) (hs : ∀ e ∈ es, e.Sane) (m : CodeMap) :
    bfChars g m (es.flatMap BfEntry.operands) = .ok (putTexts m (es.flatMap BfEntry.pairs)) := by
  induction h generalizing m with
  | nil => rfl
  | @cons src dst ts es _ ih =>
    have h0 := hs _ List.mem_cons_self
    rw [List.flatMap_cons, List.flatMap_cons]
    simp only [BfEntry.operands, BfEntry.pairs, List.cons_append, List.nil_append]
    rw [bfChars, nunpack_be h0.1 h0.2]
    simp only [addCid2unichr]
    rw [ih fun e he => hs e (List.mem_cons_of_mem _ he)]
    rfl

theorem putTexts_append (m : CodeMap) (a b : List (Nat × Bytes)) : putTexts m (a ++ b) = putTexts (putTexts m a) b := by
  simp [putTexts]

theorem bfRanges_put {g : PyStr → Option PyStr} {mid : List Tok} {es : List BfEntry} (h : BfRanges mid es) (hs : ∀ e ∈ es, e.Sane) (m : CodeMap) :
    bfRanges g m (es.flatMap BfEntry.operands) = .ok (putTexts m (es.flatMap BfEntry.pairs)) := by
  induction h generalizing m with
  | nil => rfl
  | @range lo hi dst ts es _ ih =>
    rw [List.flatMap_cons, List.flatMap_cons, putTexts_append, ← ih fun e he => hs e (List.mem_cons_of_mem _ he)]
    simp only [BfEntry.operands, List.cons_append, List.nil_append]
    rw [bfRanges, bfRangeEntry_put (hs _ List.mem_cons_self)]
  | @list lo hi dsts ts es _ ih =>
    rw [List.flatMap_cons, List.flatMap_cons, putTexts_append, ← ih fun e he => hs e (List.mem_cons_of_mem _ he)]
    simp only [BfEntry.operands, List.cons_append, List.nil_append]
    rw [bfRanges, bfListEntry_put (hs _ List.mem_cons_self)]

/-! ### What the map says afterwards -/

theorem pairs_says {e : BfEntry} (he : e.Sane) (code : Nat) (t : Bytes) : (code, t) ∈ BfEntry.pairs e ↔ e.Says code t := by
  cases e with
  | char src dst => simp [BfEntry.pairs, BfEntry.Says]
  | range lo hi dst =>
    simp only [BfEntry.pairs, BfEntry.Says, List.mem_map, List.mem_range, Prod.mk.injEq]
    constructor
    · rintro ⟨i, hi, rfl, rfl⟩; exact ⟨i, rfl, by omega, rfl⟩
    · rintro ⟨i, rfl, h, rfl⟩; exact ⟨i, by omega, rfl, rfl⟩
  | list lo hi dsts =>
    obtain ⟨h1, h4, hl, ho⟩ := he
    simp only [BfEntry.pairs, BfEntry.Says, List.mem_map, List.mem_range, Prod.mk.injEq]
    constructor
    · rintro ⟨i, hi, rfl, rfl⟩
      have : i < dsts.length := by omega
      exact ⟨i, rfl, by omega, by simp [this]⟩
    · rintro ⟨i, rfl, h, ht⟩
      refine ⟨i, by omega, rfl, ?_⟩
      simp [ht]

theorem says_unique {e : BfEntry} {code : Nat} {t t' : Bytes} (h : e.Says code t) (h' : e.Says code t') : t = t' := by
  cases e with
  | char src dst => rw [h.2, h'.2]
  | range lo hi dst =>
    obtain ⟨i, h1, _, rfl⟩ := h
    obtain ⟨j, h2, _, rfl⟩ := h'
    rw [show i = j by omega]
  | list lo hi dsts =>
    obtain ⟨i, h1, _, h3⟩ := h
    obtain ⟨j, h2, _, h4⟩ := h'
    rw [show i = j by omega] at h3
    rw [h3] at h4
    cases h4; rfl

theorem putTexts_get (m : CodeMap) (l : List (Nat × Bytes)) (c : Nat) :
    (∃ t, (c, t) ∈ l ∧ dictGet (putTexts m l) (c : Int) = some (utf16be t)) ∨
      ((∀ t, (c, t) ∉ l) ∧ dictGet (putTexts m l) (c : Int) = dictGet m (c : Int)) := by
  induction l generalizing m with
  | nil => exact .inr ⟨by simp, rfl⟩
  | cons e l ih =>
    obtain ⟨c', t'⟩ := e
    have : putTexts m ((c', t') :: l) = putTexts (dictSet m (c' : Int) (utf16be t')) l := rfl
    rw [this]
    rcases ih (dictSet m (c' : Int) (utf16be t')) with ⟨t, ht, hd⟩ | ⟨hn, hd⟩
    · exact .inl ⟨t, List.mem_cons_of_mem _ ht, hd⟩
    · rw [hd, dictGet_dictSet]
      by_cases h : c' = c
      · subst h; exact .inl ⟨t', List.mem_cons_self, by simp⟩
      · refine .inr ⟨?_, by rw [if_neg]; exact_mod_cast h⟩
        intro t ht
        rcases List.mem_cons.1 ht with h' | h'
        · cases h'; exact h rfl
        · exact hn t h'

theorem putTexts_says {es : List BfEntry} (hs : ∀ e ∈ es, e.Sane) (m : CodeMap) {code : Nat} {r : Option Bytes} (h : TextOfCode es code r) :
    dictGet (putTexts m (es.flatMap BfEntry.pairs)) (code : Int) =
      match (generalizing := false) r with
      | some t => some (utf16be t)
      | none => dictGet m (code : Int) := by
  cases h with
  | missing hm =>
    rcases putTexts_get m (es.flatMap BfEntry.pairs) code with ⟨t, ht, _⟩ | ⟨_, hd⟩
    · obtain ⟨e, he, ht⟩ := List.mem_flatMap.1 ht
      exact absurd ((pairs_says (hs e he) code t).1 ht) (hm e he t)
    · exact hd
  | @given before e after text heq hsay hl =>
    subst heq
    rw [List.flatMap_append, List.flatMap_cons, putTexts_append, putTexts_append]
    rcases putTexts_get (putTexts (putTexts m (before.flatMap BfEntry.pairs)) (BfEntry.pairs e)) (after.flatMap BfEntry.pairs) code with ⟨t, ht, _⟩ | ⟨_, hd⟩
    · obtain ⟨e', he', ht⟩ := List.mem_flatMap.1 ht
      exact absurd ((pairs_says (hs e' (by simp [he'])) code t).1 ht) (hl e' he' t)
    · rw [hd]
      have he : e.Sane := hs e (by simp)
      rcases putTexts_get (putTexts m (before.flatMap BfEntry.pairs)) (BfEntry.pairs e) code with ⟨t, ht, hd'⟩ | ⟨hn, _⟩
      · rw [hd', says_unique hsay ((pairs_says he code t).1 ht)]
      · exact absurd ((pairs_says he code text).2 hsay) (hn text)

/-- There is always an answer. -/
theorem textOfCode_total (es : List BfEntry) (code : Nat) : ∃ r, TextOfCode es code r := by
  induction es with
  | nil => exact ⟨none, .missing (by simp)⟩
  | cons e es ih =>
    obtain ⟨r, hr⟩ := ih
    cases hr with
    | given heq hsay hl => exact ⟨_, .given (before := e :: _) (by rw [heq]; rfl) hsay hl⟩
    | missing hm =>
      by_cases h : ∃ t, e.Says code t
      · obtain ⟨t, ht⟩ := h
        exact ⟨some t, .given (before := []) rfl ht hm⟩
      · refine ⟨none, .missing fun e' he' => ?_⟩
        rcases List.mem_cons.1 he' with rfl | he'
        · exact fun t ht => h ⟨t, ht⟩
        · exact hm e' he'

/-! ### The parser -/

theorem speaks_cmap : cmapHooks.Speaks cmapDialect where
  refs h := by simp [cmapDialect] at h
  nulls h := by simp [cmapDialect] at h
  plain n hn := ⟨hn.1, fun st pos => rfl⟩

theorem keeps_cmap (st : StackSt) : Keeps cmapHooks st := .inr fun _ => rfl

/-- A token of operands and operators without a meaning. -/
def PlainTok (t : Tok) : Prop := ∀ n, t = .kw n → n ∈ brackets ∨ cmapDialect.plain n

mutual
theorem writes_plain {ts : List Tok} {o : Obj} (h : Writes cmapDialect ts o) : ∀ t ∈ ts, PlainTok t :=
  match h with
  | .int n => by intro t ht; simp at ht; subst ht; intro n h; cases h
  | .real m k => by intro t ht; simp at ht; subst ht; intro n h; cases h
  | .bool b => by intro t ht; simp at ht; subst ht; intro n h; cases h
  | .str s => by intro t ht; simp at ht; subst ht; intro n h; cases h
  | .name n => by intro t ht; simp at ht; subst ht; intro n h; cases h
  | .null hn => by simp [cmapDialect] at hn
  | .ref i g hr => by simp [cmapDialect] at hr
  | .kw n hn => by intro t ht; simp at ht; subst ht; intro m h; cases h; exact .inr hn
  | .arr hs => by
    intro t ht
    simp at ht
    rcases ht with rfl | ht | rfl
    · intro n h; cases h; left; decide
    · exact writesSeq_plain hs t ht
    · intro n h; cases h; left; decide
  | .proc hs => by
    intro t ht
    simp at ht
    rcases ht with rfl | ht | rfl
    · intro n h; cases h; left; decide
    · exact writesSeq_plain hs t ht
    · intro n h; cases h; left; decide
  | .dict hs _ _ => by
    intro t ht
    simp at ht
    rcases ht with rfl | ht | rfl
    · intro n h; cases h; left; decide
    · exact writesSeq_plain hs t ht
    · intro n h; cases h; left; decide
theorem writesSeq_plain {ts : List Tok} {os : List Obj} (h : WritesSeq cmapDialect ts os) : ∀ t ∈ ts, PlainTok t :=
  match h with
  | .nil => by simp
  | .cons ho hs => by
    intro t ht
    rcases List.mem_append.1 ht with ht | ht
    · exact writes_plain ho t ht
    · exact writesSeq_plain hs t ht
end

theorem ascii_asc (s : String) : ascii s = asc s := rfl

/-- Operators without a meaning are pushed. -/
theorem keyword_plain {g : PyStr → Option PyStr} {s : CMapSt} (hi : s.inCmap = true) (pos : Nat) {n : Bytes} (hn : cmapDialect.plain n) :
    s.keyword g pos n = .ok { s with stack := s.stack.push (pos, .kw n) } := by
  have h : ∀ w ∈ cmapWords, n ≠ asc w := hn.2
  simp only [cmapWords, List.mem_cons, List.not_mem_nil, or_false, forall_eq_or_imp, forall_eq] at h
  obtain ⟨a1, a2, a3, a4, a5, a6, a7, a8, a9, a10, a11, a12, a13, a14, a15, a16⟩ := h
  unfold CMapSt.keyword
  rw [if_neg a1, if_neg a2, hi]
  simp only [Bool.not_true, Bool.false_eq_true, ↓reduceIte]
  rw [if_neg a3, if_neg a4, if_neg, if_neg, if_neg a12, if_neg a14]
  · exact fun h => h.elim a8 a10
  · simp only [clearWords, List.mem_cons, List.not_mem_nil, or_false, not_or]
    exact ⟨a5, a6, a7, a9, a11, a13, a15, a16⟩

theorem feed_plain {g : PyStr → Option PyStr} {s : CMapSt} (hi : s.inCmap = true) (pos : Nat) {t : Tok} (ht : PlainTok t) :
    s.feed g (pos, t) = (s.stack.feed cmapHooks pos t).map fun st => { s with stack := st } := by
  cases t with
  | kw n =>
    rw [CMapSt.feed]
    split
    · rfl
    · rename_i hb
      have hp : cmapDialect.plain n := (ht n rfl).resolve_left hb
      rw [keyword_plain hi pos hp, StackSt.feed, feedBody_kw _ _ hp.1]
      show _ = Except.map _ (cmapHooks.settle (.ok (s.stack.push (pos, .kw n))))
      rw [settle_keeps (keeps_cmap _)]
      rfl
  | _ => rfl

theorem fold_plain {g : PyStr → Option PyStr} {s : CMapSt} (hi : s.inCmap = true) {pts : List (Nat × Tok)} (ht : ∀ x ∈ pts, PlainTok x.2)
    {st' : StackSt} (hf : feedAll cmapHooks s.stack pts = .ok st') : pts.foldlM (CMapSt.feed g) s = .ok { s with stack := st' } := by
  induction pts generalizing s with
  | nil => cases hf; rfl
  | cons x pts ih =>
    obtain ⟨p, t⟩ := x
    rw [feedAll] at hf
    rw [List.foldlM_cons, feed_plain hi p (ht (p, t) List.mem_cons_self)]
    cases h : s.stack.feed cmapHooks p t with
    | error e => rw [h] at hf; cases hf
    | ok st =>
      rw [h] at hf
      exact ih (s := { s with stack := st }) hi (fun x hx => ht x (List.mem_cons_of_mem _ hx)) hf

theorem plain_of_map {pts : List (Nat × Tok)} {ts : List Tok} (hp : pts.map Prod.snd = ts) (h : ∀ t ∈ ts, PlainTok t) : ∀ x ∈ pts, PlainTok x.2 := by
  intro x hx
  exact h _ (by rw [← hp]; exact List.mem_map_of_mem hx)

theorem fold_writes {g : PyStr → Option PyStr} {s : CMapSt} (hi : s.inCmap = true) {ts : List Tok} {o : Obj} (hw : Writes cmapDialect ts o)
    {pts : List (Nat × Tok)} (hp : pts.map Prod.snd = ts) :
    ∃ p, pts.foldlM (CMapSt.feed g) s = .ok { s with stack := s.stack.push (p, o) } := by
  obtain ⟨p, hf⟩ := pushes speaks_cmap hw s.stack pts (keeps_cmap _) hp
  exact ⟨p, fold_plain hi (plain_of_map hp (writes_plain hw)) hf⟩

theorem fold_writesSeq {g : PyStr → Option PyStr} {s : CMapSt} (hi : s.inCmap = true) {ts : List Tok} {os : List Obj}
    (hw : WritesSeq cmapDialect ts os) {pts : List (Nat × Tok)} (hp : pts.map Prod.snd = ts) :
    ∃ pos : List (Nat × Obj), pos.map Prod.snd = os ∧
      pts.foldlM (CMapSt.feed g) s = .ok { s with stack := { s.stack with curstack := s.stack.curstack ++ pos } } := by
  obtain ⟨pos, h1, hf⟩ := pushesSeq speaks_cmap hw s.stack pts (keeps_cmap _) hp
  exact ⟨pos, h1, fold_plain hi (plain_of_map hp (writesSeq_plain hw)) hf⟩

theorem bfChars_writes {mid : List Tok} {es : List BfEntry} (h : BfChars mid es) : WritesSeq cmapDialect mid (es.flatMap BfEntry.operands) := by
  induction h with
  | nil => exact .nil
  | @cons src dst ts es _ ih =>
    exact .cons (t := [.str src]) (.str src) (.cons (t := [.str dst]) (.str dst) ih)

theorem strs_writes (ds : List Bytes) : WritesSeq cmapDialect (ds.map Tok.str) (ds.map Obj.str) := by
  induction ds with
  | nil => exact .nil
  | cons d ds ih => exact .cons (t := [.str d]) (.str d) ih

theorem bfRanges_writes {mid : List Tok} {es : List BfEntry} (h : BfRanges mid es) : WritesSeq cmapDialect mid (es.flatMap BfEntry.operands) := by
  induction h with
  | nil => exact .nil
  | @range lo hi dst ts es _ ih =>
    exact .cons (t := [.str lo]) (.str lo) (.cons (t := [.str hi]) (.str hi) (.cons (t := [.str dst]) (.str dst) ih))
  | @list lo hi dsts ts es _ ih =>
    have := WritesSeq.cons (.arr (strs_writes dsts)) ih
    simp only [List.append_assoc, List.cons_append, List.nil_append] at this ⊢
    exact .cons (t := [.str lo]) (.str lo) (.cons (t := [.str hi]) (.str hi) this)

theorem feed_word {g : PyStr → Option PyStr} (s : CMapSt) (p : Nat) {n : Bytes} (hn : n ∉ brackets) : s.feed g (p, .kw n) = s.keyword g p n := by
  rw [CMapSt.feed]; exact if_neg hn

theorem foldlM_append_ok {α β : Type} {f : β → α → Except PyErr β} {a b : List α} {s s' : β} (h : a.foldlM f s = .ok s') :
    (a ++ b).foldlM f s = b.foldlM f s' := by
  rw [List.foldlM_append, h]; rfl

theorem foldlM_cons_ok {α β : Type} {f : β → α → Except PyErr β} {x : α} {b : List α} {s s' : β} (h : f s x = .ok s') :
    (x :: b).foldlM f s = b.foldlM f s' := by
  rw [List.foldlM_cons, h]; rfl

theorem fold_final {g : PyStr → Option PyStr} {pts : List (Nat × Tok)} (h : ∀ n, Tok.kw n ∈ pts.map Prod.snd → n ∉ brackets ∧ n ≠ ascii "begincmap")
    {s : CMapSt} (hi : s.inCmap = false) : ∃ s', pts.foldlM (CMapSt.feed g) s = .ok s' ∧ s'.umap = s.umap := by
  induction pts generalizing s with
  | nil => exact ⟨s, rfl, rfl⟩
  | cons x pts ih =>
    obtain ⟨p, t⟩ := x
    have h' : ∀ n, Tok.kw n ∈ pts.map Prod.snd → n ∉ brackets ∧ n ≠ ascii "begincmap" := fun n hn => h n (List.mem_cons_of_mem _ hn)
    have step : ∃ s1, s.feed g (p, t) = .ok s1 ∧ s1.inCmap = false ∧ s1.umap = s.umap := by
      have atom : ∀ (o : Obj) (t : Tok), (∀ n, t ≠ .kw n) → s.stack.feedBody cmapHooks p t = .ok (s.stack.push (p, o)) →
          ∃ s1, s.feed g (p, t) = .ok s1 ∧ s1.inCmap = false ∧ s1.umap = s.umap := by
        intro o t hk hb
        refine ⟨{ s with stack := s.stack.push (p, o) }, ?_, hi, rfl⟩
        have : s.feed g (p, t) = (s.stack.feed cmapHooks p t).map fun st => { s with stack := st } := by
          cases t with
          | kw n => exact absurd rfl (hk n)
          | _ => rfl
        rw [this, feed_atom (keeps_cmap _) p hb]
        rfl
      cases t with
      | kw n =>
        obtain ⟨hb, hc⟩ := h n (by simp)
        rw [feed_word s p hb]
        unfold CMapSt.keyword
        rw [if_neg (by exact hc)]
        split
        · exact ⟨_, rfl, rfl, rfl⟩
        · rw [hi]; exact ⟨s, rfl, hi, rfl⟩
      | int n => exact atom (.int n) _ (by simp) rfl
      | real a b => exact atom (.real a b) _ (by simp) rfl
      | bool b => exact atom (.bool b) _ (by simp) rfl
      | str b => exact atom (.str b) _ (by simp) rfl
      | lit b => exact atom (.name b) _ (by simp) rfl
    obtain ⟨s1, h1, h2, h3⟩ := step
    obtain ⟨s', h4, h5⟩ := ih h' h2
    exact ⟨s', by rw [foldlM_cons_ok h1]; exact h4, h5.trans h3⟩

/-- The program of a character map stores the texts of its entries, one after the other. -/
theorem cmap_fold {g : PyStr → Option PyStr} {ts : List Tok} {es : List BfEntry} (h : CMapText ts es) (hs : ∀ e ∈ es, e.Sane)
    {pts : List (Nat × Tok)} (hp : pts.map Prod.snd = ts) {s : CMapSt} (hi : s.inCmap = true) :
    ∃ s', pts.foldlM (CMapSt.feed g) s = .ok s' ∧ s'.umap = putTexts s.umap (es.flatMap BfEntry.pairs) := by
  induction h generalizing pts s with
  | nil =>
    have : pts = [] := by simpa using hp
    subst this
    exact ⟨s, rfl, rfl⟩
  | thing hw _ ih =>
    obtain ⟨a, b, rfl, ha, hb⟩ := map_snd_append hp
    obtain ⟨p, hf⟩ := fold_writes (g := g) hi hw ha
    obtain ⟨s', h1, h2⟩ := ih hs hb (s := { s with stack := s.stack.push (p, _) }) hi
    exact ⟨s', by rw [foldlM_append_ok hf]; exact h1, h2⟩
  | @definition kt k vt v ts es hk hkey hv _ ih =>
    obtain ⟨ab, c, rfl, hab, hc⟩ := map_snd_append hp
    obtain ⟨a, b, rfl, ha, hb⟩ := map_snd_append hab
    obtain ⟨q, r, rfl, hr⟩ := map_snd_cons hc
    obtain ⟨p1, hf1⟩ := fold_writes (g := g) hi hk ha
    obtain ⟨p2, hf2⟩ := fold_writes (g := g) (s := { s with stack := s.stack.push (p1, k) }) hi hv hb
    have hkey' : ∃ key, k.key = .ok key := by
      cases k <;> simp [Spec.keyOf] at hkey <;> exact ⟨_, rfl⟩
    obtain ⟨key, hkey'⟩ := hkey'
    have hfeed : CMapSt.feed g { s with stack := (s.stack.push (p1, k)).push (p2, v) } (q, .kw (ascii "def")) =
        .ok { s with attrs := dictSet s.attrs key v } := by
      rw [feed_word _ _ (by decide +kernel)]
      unfold CMapSt.keyword
      rw [if_neg (by decide +kernel), if_neg (by decide +kernel)]
      simp only [hi, Bool.not_true, Bool.false_eq_true, ↓reduceIte]
      rw [if_pos (show ascii "def" = asc "def" from rfl)]
      simp only [StackSt.pop, StackSt.push, List.append_assoc, List.cons_append, List.nil_append, List.length_append, List.length_cons, List.length_nil,
        Nat.zero_add, Nat.add_sub_cancel, List.drop_left, List.take_left, hkey']
    obtain ⟨s', h1, h2⟩ := ih hs hr (s := { s with attrs := dictSet s.attrs key v }) hi
    refine ⟨s', ?_, h2⟩
    rw [foldlM_append_ok (a := a ++ b) (by rw [foldlM_append_ok hf1]; exact hf2), foldlM_cons_ok hfeed]
    exact h1
  | @other w ts es hw _ ih =>
    obtain ⟨q, r, rfl, hr⟩ := map_snd_cons hp
    have hfeed : ∃ s1 : CMapSt, CMapSt.feed g s (q, .kw (ascii w)) = .ok s1 ∧ s1.inCmap = true ∧ s1.umap = s.umap := by
      simp only [List.mem_cons, List.not_mem_nil, or_false] at hw
      rcases hw with rfl | rfl | rfl | rfl | rfl | rfl | rfl | rfl | rfl <;>
      · rw [feed_word _ _ (by decide +kernel)]
        unfold CMapSt.keyword
        repeat first | rw [if_pos (by decide +kernel)] | rw [if_neg (by decide +kernel)] | rw [if_neg (by rw [hi]; decide)]
        exact ⟨_, rfl, by first | rfl | exact hi, rfl⟩
    obtain ⟨s1, h1, h2, h3⟩ := hfeed
    obtain ⟨s', h4, h5⟩ := ih hs hr h2
    exact ⟨s', by rw [foldlM_cons_ok h1]; exact h4, by rw [h5, h3]⟩
  | @bfchar mid es₁ ts es hm _ ih =>
    have hp' : pts.map Prod.snd = .kw (ascii "beginbfchar") :: (mid ++ .kw (ascii "endbfchar") :: ts) := by rw [hp]; rfl
    obtain ⟨q, r, rfl, hr⟩ := map_snd_cons hp'
    obtain ⟨a, b, rfl, ha, hb⟩ := map_snd_append hr
    obtain ⟨q2, r2, rfl, hr2⟩ := map_snd_cons hb
    have f1 : CMapSt.feed g s (q, .kw (ascii "beginbfchar")) = .ok s.popAll.2 := by
      rw [feed_word _ _ (by decide +kernel)]
      unfold CMapSt.keyword
      repeat first | rw [if_pos (by decide +kernel)] | rw [if_neg (by decide +kernel)] | rw [if_neg (by rw [hi]; decide)]
    have hi1 : s.popAll.2.inCmap = true := hi
    obtain ⟨pos, hpos, f2⟩ := fold_writesSeq (g := g) hi1 (bfChars_writes hm) ha
    have f3 : CMapSt.feed g { s.popAll.2 with stack := { s.popAll.2.stack with curstack := s.popAll.2.stack.curstack ++ pos } } (q2, .kw (ascii "endbfchar")) =
        .ok { s.popAll.2 with umap := putTexts s.umap (es₁.flatMap BfEntry.pairs) } := by
      rw [feed_word _ _ (by decide +kernel)]
      unfold CMapSt.keyword
      repeat first | rw [if_pos (by decide +kernel)] | rw [if_neg (by decide +kernel)] | rw [if_neg (by rw [hi1]; decide)]
      simp only [CMapSt.popAll, List.nil_append, hpos]
      rw [bfChars_put hm fun e he => hs e (List.mem_append_left _ he)]
      rfl
    obtain ⟨s', h4, h5⟩ := ih (fun e he => hs e (List.mem_append_right _ he)) hr2 (s := { s.popAll.2 with umap := putTexts s.umap (es₁.flatMap BfEntry.pairs) }) hi
    refine ⟨s', ?_, ?_⟩
    · rw [foldlM_cons_ok f1, foldlM_append_ok f2, foldlM_cons_ok f3]; exact h4
    · rw [h5, List.flatMap_append, putTexts_append]
  | @bfrange mid es₁ ts es hm _ ih =>
    have hp' : pts.map Prod.snd = .kw (ascii "beginbfrange") :: (mid ++ .kw (ascii "endbfrange") :: ts) := by rw [hp]; rfl
    obtain ⟨q, r, rfl, hr⟩ := map_snd_cons hp'
    obtain ⟨a, b, rfl, ha, hb⟩ := map_snd_append hr
    obtain ⟨q2, r2, rfl, hr2⟩ := map_snd_cons hb
    have f1 : CMapSt.feed g s (q, .kw (ascii "beginbfrange")) = .ok s.popAll.2 := by
      rw [feed_word _ _ (by decide +kernel)]
      unfold CMapSt.keyword
      repeat first | rw [if_pos (by decide +kernel)] | rw [if_neg (by decide +kernel)] | rw [if_neg (by rw [hi]; decide)]
    have hi1 : s.popAll.2.inCmap = true := hi
    obtain ⟨pos, hpos, f2⟩ := fold_writesSeq (g := g) hi1 (bfRanges_writes hm) ha
    have f3 : CMapSt.feed g { s.popAll.2 with stack := { s.popAll.2.stack with curstack := s.popAll.2.stack.curstack ++ pos } } (q2, .kw (ascii "endbfrange")) =
        .ok { s.popAll.2 with umap := putTexts s.umap (es₁.flatMap BfEntry.pairs) } := by
      rw [feed_word _ _ (by decide +kernel)]
      unfold CMapSt.keyword
      repeat first | rw [if_pos (by decide +kernel)] | rw [if_neg (by decide +kernel)] | rw [if_neg (by rw [hi1]; decide)]
      simp only [CMapSt.popAll, List.nil_append, hpos]
      rw [bfRanges_put hm fun e he => hs e (List.mem_append_left _ he)]
      rfl
    obtain ⟨s', h4, h5⟩ := ih (fun e he => hs e (List.mem_append_right _ he)) hr2 (s := { s.popAll.2 with umap := putTexts s.umap (es₁.flatMap BfEntry.pairs) }) hi
    refine ⟨s', ?_, ?_⟩
    · rw [foldlM_cons_ok f1, foldlM_append_ok f2, foldlM_cons_ok f3]; exact h4
    · rw [h5, List.flatMap_append, putTexts_append]
  | @final ts ht =>
    obtain ⟨q, r, rfl, hr⟩ := map_snd_cons hp
    have f1 : CMapSt.feed g s (q, .kw (ascii "endcmap")) = .ok { s with inCmap := false } := by
      rw [feed_word _ _ (by decide +kernel)]
      unfold CMapSt.keyword
      repeat first | rw [if_pos (by decide +kernel)] | rw [if_neg (by decide +kernel)]
    obtain ⟨s', h4, h5⟩ := fold_final (g := g) (pts := r) (by rw [hr]; exact ht) (s := { s with inCmap := false }) rfl
    exact ⟨s', by rw [foldlM_cons_ok f1]; exact h4, h5⟩

/-- C46. Reading a `ToUnicode` stream: `get_unichr(code)` gives the text of the last `bfchar` or `bfrange` entry for the code, and raises
`KeyError` if there is none. -/
theorem tounicode_map (g : PyStr → Option PyStr) (b : Nat) (hb : 0 < b) (data : Bytes) (pts : List (Nat × Tok)) (es : List BfEntry)
    (ht : Spec.Text 0 pts data []) (h : CMapText (pts.map Prod.snd) es) (hs : ∀ e ∈ es, e.Sane) :
    ∃ s, cmapRun g b data = .ok s ∧ ∀ (code : Nat) (r : Option Bytes), TextOfCode es code r →
      getUnichr s.umap code = match (generalizing := false) r with
        | some t => .ok (utf16be t)
        | none => .error .keyError := by
  obtain ⟨s, h1, h2⟩ := cmap_fold (g := g) h hs rfl (s := {}) rfl
  have htok : tokenize b data = (pts, some .psEOF) := tokenize_text b hb data 0 pts (by simpa using ht)
  refine ⟨s, by simp only [cmapRun, htok, h1], fun code r hr => ?_⟩
  have := putTexts_says hs [] hr
  rw [getUnichr, h2, this]
  cases r with
  | some t => rfl
  | none => rfl

/-- C46, one code: the last entry for the code of `src` is a `bfchar` with a text in UTF-16BE; the map gives the characters of the text. -/
theorem tounicode_char (g : PyStr → Option PyStr) (b : Nat) (hb : 0 < b) (data : Bytes) (pts : List (Nat × Tok)) (before after : List BfEntry)
    (src : Bytes) (text : List Char) (ht : Spec.Text 0 pts data [])
    (h : CMapText (pts.map Prod.snd) (before ++ .char src (Spec.utf16 text) :: after))
    (hs : ∀ e ∈ before ++ .char src (Spec.utf16 text) :: after, e.Sane) (hl : ∀ e ∈ after, ∀ t, ¬ e.Says (beValue src) t) :
    ∃ s, cmapRun g b data = .ok s ∧ getUnichr s.umap (beValue src) = .ok (text.map Char.toNat) := by
  obtain ⟨s, h1, h2⟩ := tounicode_map g b hb data pts _ ht h hs
  refine ⟨s, h1, ?_⟩
  rw [h2 _ _ (.given rfl ⟨rfl, rfl⟩ hl)]
  show Except.ok (utf16be (Spec.utf16 text)) = _
  rw [utf16be_text]

theorem utf16be_unit (n : Nat) (h : n < 0xd800) : utf16be [UInt8.ofNat (n / 256), UInt8.ofNat (n % 256)] = [n] := by
  have hv : n.isValidChar := Or.inl h
  have e : (Char.ofNat n).toNat = n := by
    rw [Char.ofNat, dif_pos hv]
    show (UInt32.ofNatLT n _).toNat = n
    simp
  have := utf16be_text [Char.ofNat n]
  simp only [Spec.utf16, List.flatMap_cons, List.flatMap_nil, List.append_nil, Spec.utf16Char, e, List.map_cons, List.map_nil] at this
  rwa [if_pos (by omega)] at this

/-- C46, a range: the codes from `lo` to `hi` with the first character `c` get the characters from `c` on. -/
theorem tounicode_range (g : PyStr → Option PyStr) (b : Nat) (hb : 0 < b) (data : Bytes) (pts : List (Nat × Tok)) (before after : List BfEntry)
    (lo hi : Bytes) (c i : Nat) (ht : Spec.Text 0 pts data [])
    (h : CMapText (pts.map Prod.snd) (before ++ .range lo hi (toBe 2 c) :: after))
    (hs : ∀ e ∈ before ++ .range lo hi (toBe 2 c) :: after, e.Sane) (hi1 : beValue lo + i ≤ beValue hi) (hc : c + i < 0xd800)
    (hl : ∀ e ∈ after, ∀ t, ¬ e.Says (beValue lo + i) t) :
    ∃ s, cmapRun g b data = .ok s ∧ getUnichr s.umap (beValue lo + i : Nat) = .ok [c + i] := by
  obtain ⟨s, h1, h2⟩ := tounicode_map g b hb data pts _ ht h hs
  refine ⟨s, h1, ?_⟩
  rw [h2 _ (some (advance (toBe 2 c) i)) (.given rfl ⟨i, rfl, hi1, rfl⟩ hl)]
  have e1 : beValue (toBe 2 c) = c := by
    have a : c / 256 % 256 = c / 256 := by omega
    have b : c % 256 % 256 = c % 256 := by omega
    simp only [toBe, beValue, List.foldl_cons, List.foldl_nil, pow_zero, pow_one, Nat.div_one, UInt8.toNat_ofNat', Nat.zero_mul, Nat.zero_add]
    omega
  have e2 : advance (toBe 2 c) i = [UInt8.ofNat ((c + i) / 256), UInt8.ofNat ((c + i) % 256)] := by
    have : advance (toBe 2 c) i = toBe 2 (beValue (toBe 2 c) + i) := by simp [advance, toBe]
    rw [this, e1]
    simp [toBe]
  rw [e2]
  simp only [utf16be_unit _ hc]

/-- `/CMapName /A def 1 beginbfchar <03> <0066 0069> endbfchar 1 beginbfrange <04> <06> <0061> <07> <07> [<0041>] endbfrange endcmap`: a program
with its entries. -/
theorem tounicode_example : CMapText
    [.lit (ascii "CMapName"), .lit [65], .kw (ascii "def"), .int 1, .kw (ascii "beginbfchar"), .str [3], .str [0, 102, 0, 105], .kw (ascii "endbfchar"),
      .int 1, .kw (ascii "beginbfrange"), .str [4], .str [6], .str [0, 97], .str [7], .str [7], .kw [91], .str [0, 65], .kw [93],
      .kw (ascii "endbfrange"), .kw (ascii "endcmap"), .kw (ascii "end")]
    [.char [3] [0, 102, 0, 105], .range [4] [6] [0, 97], .list [7] [7] [[0, 65]]] ∧
    (∀ e ∈ [BfEntry.char [3] [0, 102, 0, 105], .range [4] [6] [0, 97], .list [7] [7] [[0, 65]]], e.Sane) ∧
    TextOfCode [.char [3] [0, 102, 0, 105], .range [4] [6] [0, 97], .list [7] [7] [[0, 65]]] 5 (some [0, 98]) ∧
    TextOfCode [.char [3] [0, 102, 0, 105], .range [4] [6] [0, 97], .list [7] [7] [[0, 65]]] 8 none := by
  refine ⟨?_, ?_, ?_, ?_⟩
  · refine .definition (.name _) (by simp [Spec.keyOf]) (.name _) ?_
    refine .thing (.int 1) ?_
    refine .bfchar (.cons .nil) ?_
    refine .thing (.int 1) ?_
    have := CMapText.bfrange (.range (lo := [4]) (hi := [6]) (dst := [0, 97]) (.list (lo := [7]) (hi := [7]) (dsts := [[0, 65]]) .nil)) (.final (ts := [.kw (ascii "end")]) ?_)
    · exact this
    · intro n hn
      simp only [List.mem_singleton, Tok.kw.injEq] at hn
      subst hn
      exact ⟨by decide +kernel, by decide +kernel⟩
  · intro e he
    simp only [List.mem_cons, List.not_mem_nil, or_false] at he
    rcases he with rfl | rfl | rfl
    · exact ⟨by decide, by decide⟩
    · exact ⟨by decide, by decide, rfl, by decide, by decide⟩
    · exact ⟨by decide, by decide, rfl, by decide⟩
  · refine .given (before := [_]) (e := .range [4] [6] [0, 97]) rfl ⟨1, by decide, by decide, by decide⟩ ?_
    intro e he t
    simp only [List.mem_cons, List.not_mem_nil, or_false] at he
    subst he
    rintro ⟨i, h1, h2, _⟩
    have : beValue [7] = 7 := by decide
    omega
  · refine .missing fun e he t => ?_
    simp only [List.mem_cons, List.not_mem_nil, or_false] at he
    rcases he with rfl | rfl | rfl
    · rintro ⟨h, _⟩; revert h; decide
    · rintro ⟨i, _, h, _⟩; revert h; decide
    · rintro ⟨i, _, h, _⟩; revert h; decide

/-- The same bytes through the parser. -/
theorem tounicode_run_example : (cmapRun (fun _ => none) 4096
    (ascii "1 beginbfchar <03> <00660069> endbfchar 1 beginbfrange <04> <06> <0061> <07> <07> [<0041>] endbfrange endcmap ")).map
      (fun s => ([3, 4, 5, 6, 7, 8].map fun c => (getUnichr s.umap c).toOption)) =
    .ok [some [102, 105], some [97], some [98], some [99], some [65], none] := by decide +kernel

/-- A code of five bytes, allowed nowhere in a `ToUnicode` map but easy to write, aborts the reading of the map with a `TypeError` instead of
being skipped. -/
theorem tounicode_long_code : (cmapRun (fun _ => none) 4096 (ascii "1 beginbfchar <0000000003> <0066> endbfchar ")).map (fun s => s.umap) =
    .error .typeError := by decide +kernel

/-- A range with more codes than texts aborts the reading of the map with an `IndexError`. -/
theorem tounicode_short_list : (cmapRun (fun _ => none) 4096 (ascii "1 beginbfrange <01> <02> [<0041>] endbfrange ")).map (fun s => s.umap) =
    .error .indexError := by decide +kernel

end Pdf
