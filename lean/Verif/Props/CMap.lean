import Verif.Spec.CMap
import Verif.Props.Xref
import Mathlib.Data.List.Induction
import Mathlib.Data.List.Infix
/-! C45: character code decoding. -/

namespace Pdf
open Spec (HasCode Reaches Splits PrefixFree)

theorem decode_reaches {root d d' : List (Nat × CTrie)} {pre : List Nat} (h : Reaches d pre d') (rest : List Nat) :
    cmapDecodeFrom root d (pre ++ rest) = cmapDecodeFrom root d' rest := by
  induction h with
  | refl => rfl
  | step hd _ ih => simp [cmapDecodeFrom, hd, ih]

theorem decode_hasCode {root d : List (Nat × CTrie)} {code : List Nat} {n : Int} (h : HasCode d code n) (rest : List Nat) :
    cmapDecodeFrom root d (code ++ rest) = n :: cmapDecodeFrom root root rest := by
  induction h with
  | last hd => simp [cmapDecodeFrom, hd]
  | more hd _ ih => simp [cmapDecodeFrom, hd, ih]

theorem decode_splits {d : List (Nat × CTrie)} {input : List Nat} {cids : List Int} (h : Splits d input cids) :
    cmapDecodeFrom d d input = cids := by
  induction h with
  | done hr => have := decode_reaches (root := d) hr []; rw [List.append_nil] at this; rw [this]; rfl
  | code hc _ ih => rw [decode_hasCode hc, ih]
  | bad hr hb _ ih => rw [decode_reaches hr, cmapDecodeFrom, hb, ih]

theorem reaches_snoc {d d' d'' : List (Nat × CTrie)} {pre : List Nat} {c : Nat} (h : Reaches d pre d') (hc : dictGet d' c = some (.node d'')) :
    Reaches d (pre ++ [c]) d'' := by
  induction h with
  | refl => exact .step hc .refl
  | step hd _ ih => exact .step hd (ih hc)

theorem reaches_code {d d' : List (Nat × CTrie)} {pre : List Nat} {c : Nat} {n : Int} (h : Reaches d pre d') (hc : dictGet d' c = some (.cid n)) :
    HasCode d (pre ++ [c]) n := by
  induction h with
  | refl => exact .last hc
  | step hd _ ih => exact .more hd (ih hc)

theorem splits_from {root d : List (Nat × CTrie)} {pre : List Nat} (h : Reaches root pre d) (input : List Nat) :
    Splits root (pre ++ input) (cmapDecodeFrom root d input) := by
  induction input generalizing pre d with
  | nil => rw [List.append_nil]; exact .done h
  | cons i rest ih =>
    rw [cmapDecodeFrom]
    split
    · rename_i n hn
      have := Splits.code (reaches_code h hn) (ih (pre := []) .refl)
      simpa using this
    · rename_i d' hd
      have := ih (reaches_snoc h hd)
      simpa using this
    · rename_i hd
      exact .bad h hd (ih (pre := []) .refl)

/-- C45. `CMap.decode` splits every string: the result is the only one that the rules allow. -/
theorem cmap_decode_splits (d : List (Nat × CTrie)) (s : Bytes) (cids : List Int) :
    cmapDecode d s = cids ↔ Splits d (s.map UInt8.toNat) cids :=
  ⟨fun h => h ▸ splits_from (pre := []) .refl _, fun h => decode_splits h⟩

/-- C45. A string of complete codes decodes to their CIDs in order. -/
theorem cmap_decode_codes {d : List (Nat × CTrie)} {items : List (Bytes × Int)}
    (h : ∀ e ∈ items, HasCode d (e.1.map UInt8.toNat) e.2) : cmapDecode d (items.flatMap Prod.fst) = items.map Prod.snd := by
  unfold cmapDecode
  induction items with
  | nil => rfl
  | cons e items ih =>
    rw [List.flatMap_cons, List.map_append, decode_hasCode (h e List.mem_cons_self), ih fun x hx => h x (List.mem_cons_of_mem _ hx)]
    rfl

theorem HasCode.ne_nil {d : List (Nat × CTrie)} {code : List Nat} {n : Int} (h : HasCode d code n) : code ≠ [] := by
  cases h <;> simp

theorem hasCode_empty {code : List Nat} {n : Int} : ¬ HasCode [] code n := by
  intro h
  cases h with
  | last h => cases h
  | more h _ => cases h

/-- After a code has been added, it is in the table, and so are the old codes that do not start with it. -/
theorem addCode_hasCode {d d' : List (Nat × CTrie)} {code : List Nat} {cid : Int} (h : addCode2cid d code cid = .ok d') (code' : List Nat) (n : Int) :
    HasCode d' code' n ↔ (code' = code ∧ n = cid) ∨ (¬ code <+: code' ∧ HasCode d code' n) := by
  induction code generalizing d d' code' with
  | nil => cases h
  | cons c code ih =>
    cases code with
    | nil =>
      simp only [addCode2cid, Except.ok.injEq] at h
      subst h
      constructor
      · intro hh
        cases hh with
        | last hd =>
          rename_i c'
          rw [dictGet_dictSet] at hd
          split at hd
          · rename_i hc; cases hd; left; rw [hc]; exact ⟨rfl, rfl⟩
          · rename_i hc
            right
            refine ⟨?_, .last hd⟩
            rw [List.cons_prefix_cons]
            exact fun hp => hc hp.1
        | more hd ht =>
          rw [dictGet_dictSet] at hd
          split at hd
          · cases hd
          · rename_i hc
            right
            refine ⟨?_, .more hd ht⟩
            rw [List.cons_prefix_cons]
            exact fun hp => hc hp.1
      · rintro (⟨rfl, rfl⟩ | ⟨hp, hh⟩)
        · exact .last (by rw [dictGet_dictSet, if_pos rfl])
        · cases hh with
          | last hd =>
            refine .last ?_
            rw [dictGet_dictSet, if_neg]
            · exact hd
            · rintro rfl; exact hp (by simp)
          | more hd ht =>
            refine .more (d' := _) ?_ ht
            rw [dictGet_dictSet, if_neg]
            · exact hd
            · rintro rfl; exact hp (by simp)
    | cons c2 code =>
      -- the dictionary below `c`, before and after
      have key : ∃ sub t, addCode2cid sub (c2 :: code) cid = .ok t ∧ d' = dictSet d c (.node t) ∧
          (dictGet d c = some (.node sub) ∨ (dictGet d c = none ∧ sub = [])) := by
        rw [addCode2cid] at h
        · split at h
          · rename_i sub hs
            cases ht : addCode2cid sub (c2 :: code) cid with
            | error e => rw [ht] at h; cases h
            | ok t => rw [ht] at h; cases h; exact ⟨sub, t, ht, rfl, .inl hs⟩
          · cases h
          · rename_i hs
            cases ht : addCode2cid [] (c2 :: code) cid with
            | error e => rw [ht] at h; cases h
            | ok t => rw [ht] at h; cases h; exact ⟨[], t, ht, rfl, .inr ⟨hs, rfl⟩⟩
        · simp
      obtain ⟨sub, t, ht, rfl, hsub⟩ := key
      have ih' := fun code' => ih ht code'
      constructor
      · intro hh
        cases hh with
        | last hd =>
          rename_i c'
          rw [dictGet_dictSet] at hd
          split at hd
          · cases hd
          · rename_i hc
            exact .inr ⟨by rw [List.cons_prefix_cons]; exact fun hp => hc hp.1, .last hd⟩
        | more hd hm =>
          rename_i c' d1 code1
          rw [dictGet_dictSet] at hd
          split at hd
          · rename_i hc
            cases hd
            subst hc
            rcases (ih' code1).1 hm with ⟨rfl, rfl⟩ | ⟨hp, hs⟩
            · exact .inl ⟨rfl, rfl⟩
            · refine .inr ⟨by rw [List.cons_prefix_cons]; exact fun h => hp h.2, ?_⟩
              rcases hsub with hsub | ⟨_, rfl⟩
              · exact .more hsub hs
              · exact absurd hs hasCode_empty
          · rename_i hc
            exact .inr ⟨by rw [List.cons_prefix_cons]; exact fun hp => hc hp.1, .more hd hm⟩
      · rintro (⟨rfl, rfl⟩ | ⟨hp, hh⟩)
        · exact .more (by rw [dictGet_dictSet, if_pos rfl]) ((ih' _).2 (.inl ⟨rfl, rfl⟩))
        · cases hh with
          | last hd =>
            rename_i c'
            by_cases hc : c = c'
            · subst hc
              rcases hsub with hsub | ⟨hsub, _⟩ <;> rw [hsub] at hd <;> cases hd
            · exact .last (by rw [dictGet_dictSet, if_neg hc]; exact hd)
          | more hd hm =>
            rename_i c' d1 code1
            by_cases hc : c = c'
            · subst hc
              refine .more (by rw [dictGet_dictSet, if_pos rfl]) ((ih' _).2 (.inr ⟨?_, ?_⟩))
              · rw [List.cons_prefix_cons] at hp
                exact fun h => hp ⟨rfl, h⟩
              · rcases hsub with hsub | ⟨hsub, _⟩
                · rw [hsub] at hd; cases hd; exact hm
                · rw [hsub] at hd; cases hd
            · exact .more (by rw [dictGet_dictSet, if_neg hc]; exact hd) hm

/-- A code can be added if it is not empty and none of its proper beginnings is a code. -/
theorem addCode_ok {d : List (Nat × CTrie)} {code : List Nat} {cid : Int} (hne : code ≠ [])
    (hp : ∀ code' n, HasCode d code' n → code' <+: code → code' = code) : ∃ d', addCode2cid d code cid = .ok d' := by
  induction code generalizing d with
  | nil => exact absurd rfl hne
  | cons c code ih =>
    cases code with
    | nil => exact ⟨_, rfl⟩
    | cons c2 code =>
      rw [addCode2cid]
      · split
        · rename_i sub hs
          obtain ⟨t, ht⟩ := ih (d := sub) (by simp) fun code' n hc hpre => by
            have := hp (c :: code') n (.more hs hc) (by rw [List.cons_prefix_cons]; exact ⟨rfl, hpre⟩)
            simpa using this
          exact ⟨_, by rw [ht]; rfl⟩
        · rename_i n hs
          have := hp [c] n (.last hs) (by simp)
          simp at this
        · obtain ⟨t, ht⟩ := ih (d := []) (by simp) fun code' n hc => absurd hc hasCode_empty
          exact ⟨_, by rw [ht]; rfl⟩
      · simp

theorem addCodes_table {table : List (List Nat × Int)} {d : List (Nat × CTrie)} (hne : ∀ e ∈ table, e.1 ≠ []) (hf : PrefixFree table)
    (hd : ∀ e ∈ table, ∀ code n, HasCode d code n → ¬ code <+: e.1 ∧ ¬ e.1 <+: code) :
    ∃ d', addCodes d table = .ok d' ∧ ∀ code n, HasCode d' code n ↔ (code, n) ∈ table ∨ HasCode d code n := by
  induction table generalizing d with
  | nil => exact ⟨d, rfl, by simp⟩
  | cons e table ih =>
    obtain ⟨code0, cid⟩ := e
    unfold PrefixFree at hf
    rw [List.pairwise_cons] at hf
    obtain ⟨d1, h1⟩ := addCode_ok (d := d) (code := code0) (cid := cid) (hne _ List.mem_cons_self)
      fun code' n hc hp => absurd hp (hd _ List.mem_cons_self _ _ hc).1
    obtain ⟨d2, h2, h3⟩ := ih (d := d1) (fun e he => hne e (List.mem_cons_of_mem _ he)) hf.2 fun e he code n hc => by
      rcases (addCode_hasCode h1 code n).1 hc with ⟨rfl, rfl⟩ | ⟨_, hc⟩
      · exact hf.1 e he
      · exact hd e (List.mem_cons_of_mem _ he) code n hc
    refine ⟨d2, by rw [addCodes, h1]; exact h2, fun code n => ?_⟩
    rw [h3, addCode_hasCode h1]
    constructor
    · rintro (h | ⟨rfl, rfl⟩ | ⟨_, h⟩)
      · exact .inl (List.mem_cons_of_mem _ h)
      · exact .inl List.mem_cons_self
      · exact .inr h
    · rintro (h | h)
      · rcases List.mem_cons.1 h with h | h
        · cases h; exact .inr (.inl ⟨rfl, rfl⟩)
        · exact .inl h
      · exact .inr (.inr ⟨(hd _ List.mem_cons_self _ _ h).2, h⟩)

/-- C45. A table of prefix-free codes, entered in any order, decodes every sequence of its codes to their CIDs. -/
theorem cmap_table_decodes {table : List (List Nat × Int)} (hne : ∀ e ∈ table, e.1 ≠ []) (hf : PrefixFree table) :
    ∃ d, addCodes [] table = .ok d ∧ (∀ code n, HasCode d code n ↔ (code, n) ∈ table) ∧
      ∀ items : List (Bytes × Int), (∀ e ∈ items, (e.1.map UInt8.toNat, e.2) ∈ table) →
        cmapDecode d (items.flatMap Prod.fst) = items.map Prod.snd := by
  obtain ⟨d, h1, h2⟩ := addCodes_table (d := []) hne hf fun e _ code n hc => absurd hc hasCode_empty
  have h3 : ∀ code n, HasCode d code n ↔ (code, n) ∈ table := fun code n => by
    rw [h2]; exact or_iff_left hasCode_empty
  exact ⟨d, h1, h3, fun items hi => cmap_decode_codes fun e he => (h3 _ _).2 (hi e he)⟩

/-- A mixed table of one-byte and two-byte codes. -/
example : PrefixFree [([65], 1), ([129, 64], 2), ([129, 65], 3), ([130, 1, 2], 4)] ∧
    (∀ e ∈ [([65], (1 : Int)), ([129, 64], 2), ([129, 65], 3), ([130, 1, 2], 4)], e.1 ≠ []) := by
  unfold PrefixFree; decide

/-- Bytes that start no code, and unfinished codes, are dropped. -/
example : cmapDecode [(65, .cid 1), (129, .node [(64, .cid 2)])] [65, 129, 65, 129, 64, 7, 129] = [1, 2] := by decide +kernel

theorem unpackH_be16 (ns : List Nat) (h : ∀ n ∈ ns, n < 65536) : unpackH (ns.flatMap Spec.be16) = ns.map Int.ofNat := by
  induction ns with
  | nil => rfl
  | cons n ns ih =>
    have hn := h n List.mem_cons_self
    rw [List.flatMap_cons, Spec.be16]
    simp only [List.cons_append, List.nil_append, unpackH, ih fun m hm => h m (List.mem_cons_of_mem _ hm), List.map_cons, List.cons.injEq,
      and_true]
    have e1 : (UInt8.ofNat (n / 256)).toNat = n / 256 := by
      simp only [UInt8.toNat_ofNat']; omega
    have e2 : (UInt8.ofNat (n % 256)).toNat = n % 256 := by
      simp only [UInt8.toNat_ofNat']; omega
    rw [e1, e2]
    simp only [Int.ofNat_eq_natCast]
    omega

/-- C45. The identity map gives the big-endian 16-bit numbers, for every sequence of them. -/
theorem identity_decode (ns : List Nat) (h : ∀ n ∈ ns, n < 65536) : identityDecode (ns.flatMap Spec.be16) = .ok (ns.map Int.ofNat) := by
  have hl : ∀ ns : List Nat, (ns.flatMap Spec.be16).length = 2 * ns.length := by
    intro ns
    induction ns with
    | nil => rfl
    | cons n ns ih => rw [List.flatMap_cons, List.length_append, ih]; simp [Spec.be16]; omega
  unfold identityDecode
  rw [hl]
  cases ns with
  | nil => rfl
  | cons n ns =>
    rw [if_neg (by simp), if_pos (by simp), unpackH_be16 _ h]

theorem pairs_exist (s : Bytes) (h : s.length % 2 = 0) : ∃ ns : List Nat, (∀ n ∈ ns, n < 65536) ∧ s = ns.flatMap Spec.be16 := by
  match s, h with
  | [], _ => exact ⟨[], by simp, rfl⟩
  | [_], h => simp at h
  | a :: b :: rest, h =>
    obtain ⟨ns, h1, h2⟩ := pairs_exist rest (by simp at h; omega)
    have ha := a.toNat_lt
    have hb := b.toNat_lt
    refine ⟨(a.toNat * 256 + b.toNat) :: ns, ?_, ?_⟩
    · intro n hn
      rcases List.mem_cons.1 hn with rfl | hn
      · omega
      · exact h1 n hn
    · rw [List.flatMap_cons, ← h2, Spec.be16]
      have e1 : (a.toNat * 256 + b.toNat) / 256 = a.toNat := by omega
      have e2 : (a.toNat * 256 + b.toNat) % 256 = b.toNat := by omega
      rw [e1, e2]
      simp

/-- C45. The identity map on any string: an even number of bytes decodes; a single byte is dropped; an odd number above one fails. -/
theorem identity_decode_total (s : Bytes) :
    (s.length % 2 = 0 → ∃ ns : List Nat, (∀ n ∈ ns, n < 65536) ∧ s = ns.flatMap Spec.be16 ∧ identityDecode s = .ok (ns.map Int.ofNat)) ∧
    (s.length = 1 → identityDecode s = .ok []) ∧
    (s.length % 2 = 1 → s.length ≠ 1 → identityDecode s = .error .structError) := by
  refine ⟨fun h => ?_, fun h => ?_, fun h h1 => ?_⟩
  · obtain ⟨ns, h1, rfl⟩ := pairs_exist s h
    exact ⟨ns, h1, rfl, identity_decode ns h1⟩
  · simp [identityDecode, h]
  · rw [identityDecode, if_neg (by omega), if_neg (by omega)]

end Pdf
