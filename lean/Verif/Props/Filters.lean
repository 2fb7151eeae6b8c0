import Verif.Proofs.Filters
/-! C08: the filters of a stream and its cached data. -/

namespace Pdf
open Spec Props

theorem getFilters_stages {R : Resolver} {attrs : List (Key × Obj)} {stages : List (Filter × List (Key × Obj))} (h : Stages attrs stages) :
    ∃ names ps : List Obj, getFilters R attrs = .ok (names.zip ps) ∧ List.Forall₂ FilterNamed names (stages.map (·.1)) ∧
      List.Forall₂ ParamsAre ps (stages.map (·.2)) := by
  obtain ⟨hfd, fo, po, hf, hp, h⟩ := h
  rcases h with ⟨rfl, rfl⟩ | ⟨names, hn, hfo, hpo⟩
  · refine ⟨[], [], ?_, by simp, by simp⟩
    rw [getFilters, getAny_either hf]
    rfl
  · have hps : ∃ ps : List Obj, listFrom names.length (po.getD (.dict [])) = ps ∧
        List.Forall₂ ParamsAre ps (stages.map (·.2)) := by
      have hlen : names.length = stages.length := by simpa using hn.length_eq
      rcases hpo with ⟨rfl, hall⟩ | ⟨p, hone, rfl⟩ | ⟨ps, rfl, hfa⟩
      · refine ⟨_, rfl, ?_⟩
        simp only [Option.getD_none, hlen, listFrom]
        clear hf hp hn hlen hfo
        induction stages with
        | nil => simp
        | cons s ss ih =>
          simp only [List.length_cons, List.replicate_succ, List.map_cons]
          exact List.Forall₂.cons (Or.inl (by rw [hall s (by simp)])) (ih (fun s h => hall s (by simp [h])))
      · refine ⟨_, rfl, ?_⟩
        have : stages.length = 1 := by simpa using congrArg List.length hone
        simp only [Option.getD_some, hlen, this, hone, listFrom]
        exact List.Forall₂.cons (Or.inl rfl) .nil
      · exact ⟨ps, rfl, hfa⟩
    obtain ⟨ps, hps, hpa⟩ := hps
    have hres := resolveFilters_names R names _ hn
    rcases hfo with rfl | ⟨n, rfl, rfl⟩
    · cases names with
      | nil =>
        refine ⟨[], ps, ?_, hn, hpa⟩
        rw [getFilters, getAny_either hf]
        rfl
      | cons n ns =>
        refine ⟨n :: ns, ps, ?_, hn, hpa⟩
        rw [getFilters, getAny_either hf, getAny_parms hp hfd]
        simp only [Obj.truthy, List.isEmpty_cons, Bool.not_false, if_true, listFrom.eq_1, hps, hres]
    · refine ⟨[n], ps, ?_, hn, hpa⟩
      obtain ⟨s, hs, rfl⟩ : ∃ s : String, True ∧ n = .name (asc s) := by
        cases hst : stages.map (·.1) with
        | nil => rw [hst] at hn; cases hn
        | cons f fs =>
          rw [hst] at hn
          cases hn with
          | cons h _ => obtain ⟨s, -, h⟩ := h; exact ⟨s, trivial, h⟩
      rw [getFilters, getAny_either hf, getAny_parms hp hfd]
      simp only [Obj.truthy, if_true, show listFrom 1 (.name (asc s)) = [.name (asc s)] from rfl, hps, hres]

/-- **C08** (proved part). The data of a stream whose contents were coded by any number of filters, each with its own parameters and
predictor, are the original data: the filters named in the dictionary, by their long or short names, are undone in the order of the
dictionary, after decryption if the document is encrypted. Missing, with counterexamples below: indirect filters and parameters, the TIFF
predictor, and those codings that the single filters do not undo (C02, C05). -/
theorem stream_data_partial (R : Resolver) (hR : ∀ n : Int, R.resolve1 (.int n) = .ok (.int n)) (deflated : Bytes → Bytes → Prop)
    (inflate : Bytes → Option Bytes) (hz : ∀ plain coded, deflated plain coded → inflate coded = some plain)
    (attrs : List (Key × Obj)) (stages : List (Filter × List (Key × Obj))) (hs : Stages attrs stages) (plain coded raw : Bytes)
    (hc : Chain R deflated stages plain coded) (decipher : Option (Bytes → Except PyErr Bytes))
    (hd : match decipher with | some f => f raw = .ok coded | none => raw = coded) :
    decodeStream R inflate decipher attrs raw = .ok plain := by
  obtain ⟨names, ps, h1, h2, h3⟩ := getFilters_stages (R := R) hs
  have hraw : decipherData decipher raw = .ok coded := by
    cases decipher with
    | none => simp only at hd; rw [hd]; rfl
    | some f => exact hd
  rw [decodeStream, hraw]
  simp only [h1]
  exact applyStages_chain hR deflated inflate hz hc names ps h2 h3

/-! ### Repeated reading -/

/-- What a caller can do with a stream. -/
inductive Spec.StreamCall where
  | getData | getRawdata

/-- The answers of the stream to a sequence of calls (PDFStream/__init__.py:137-143). -/
def streamCalls (decode : Bytes → Except PyErr Bytes) : StreamSt → List StreamCall → List (Except PyErr (Option Bytes))
  | _, [] => []
  | s, .getData :: cs => ((s.getData decode).1.map some) :: streamCalls decode (s.getData decode).2 cs
  | s, .getRawdata :: cs => .ok s.rawdata :: streamCalls decode s cs

/-- The answers to a sequence of calls, as promised: the same data at every `get_data`; the raw data until the data have been asked for
with success, then none. -/
inductive Spec.Answers (raw : Bytes) (result : Except PyErr Bytes) : Bool → List StreamCall → List (Except PyErr (Option Bytes)) → Prop
  | nil {asked} : Answers raw result asked [] []
  | data {asked cs as} : Answers raw result true cs as → Answers raw result asked (.getData :: cs) (result.map some :: as)
  | raw {cs as} : Answers raw result false cs as → Answers raw result false (.getRawdata :: cs) (.ok (some raw) :: as)
  | rawGone {d cs as} : result = .ok d → Answers raw result true cs as → Answers raw result true (.getRawdata :: cs) (.ok none :: as)
  | rawKept {e cs as} : result = .error e → Answers raw result true cs as → Answers raw result true (.getRawdata :: cs) (.ok (some raw) :: as)

/-- **C08.** The first call fixes the result, and every later call, in any sequence of calls, returns the same; the raw data are given
up exactly when decoding has succeeded. -/
theorem stream_history (decode : Bytes → Except PyErr Bytes) (raw : Bytes) (calls : List StreamCall) :
    Answers raw (decode raw) false calls (streamCalls decode (.fresh raw) calls) := by
  have key : ∀ (s : StreamSt) (asked : Bool), (asked = false ∧ s = .fresh raw ∨
      asked = true ∧ ((∃ d, decode raw = .ok d ∧ s = ⟨none, some d⟩) ∨ ∃ e, decode raw = .error e ∧ s = .fresh raw)) →
      Answers raw (decode raw) asked calls (streamCalls decode s calls) := by
    induction calls with
    | nil => intro s asked _; exact .nil
    | cons c cs ih =>
      intro s asked h
      have fresh : (StreamSt.getData decode (.fresh raw)).1 = decode raw ∧
          ((∃ d, decode raw = .ok d ∧ (StreamSt.getData decode (.fresh raw)).2 = ⟨none, some d⟩) ∨
            ∃ e, decode raw = .error e ∧ (StreamSt.getData decode (.fresh raw)).2 = .fresh raw) := by
        simp only [StreamSt.getData, StreamSt.fresh]
        cases decode raw <;> simp
      rcases h with ⟨rfl, rfl⟩ | ⟨rfl, ⟨d, hd, rfl⟩ | ⟨e, he, rfl⟩⟩
      · cases c with
        | getData =>
          rw [streamCalls, fresh.1]
          exact .data (ih _ true (Or.inr ⟨rfl, fresh.2⟩))
        | getRawdata => exact .raw (ih _ false (Or.inl ⟨rfl, rfl⟩))
      · cases c with
        | getData =>
          rw [streamCalls, show (StreamSt.getData decode ⟨none, some d⟩).1 = decode raw from hd.symm]
          exact .data (ih _ true (Or.inr ⟨rfl, Or.inl ⟨d, hd, rfl⟩⟩))
        | getRawdata => exact .rawGone hd (ih _ true (Or.inr ⟨rfl, Or.inl ⟨d, hd, rfl⟩⟩))
      · cases c with
        | getData =>
          rw [streamCalls, fresh.1]
          exact .data (ih _ true (Or.inr ⟨rfl, fresh.2⟩))
        | getRawdata => exact .rawKept he (ih _ true (Or.inr ⟨rfl, Or.inr ⟨e, he, rfl⟩⟩))
  exact key _ false (Or.inl ⟨rfl, rfl⟩)

/-! ### A concrete stream: hexadecimal digits of run-length coded, predicted data -/

/-- A document in which the object 5 is a name, 6 an array of names and 7 a dictionary of parameters. -/
def sampleObjects : Resolver where
  resolve1 := fun o => match o with
    | .ref 5 _ => .ok (.name (asc "ASCIIHexDecode"))
    | .ref 6 _ => .ok (.arr [.name (asc "ASCIIHexDecode"), .name (asc "RunLengthDecode")])
    | .ref 7 _ => .ok (.dict [(nm "Predictor", .int 12), (nm "Columns", .int 2)])
    | o => .ok o
  getobj := fun n =>
    if n = 5 then .ok (.name (asc "ASCIIHexDecode"))
    else if n = 6 then .ok (.arr [.name (asc "ASCIIHexDecode"), .name (asc "RunLengthDecode")])
    else if n = 7 then .ok (.dict [(nm "Predictor", .int 12), (nm "Columns", .int 2)])
    else .error .pdfObjectNotFound

def sampleParams : List (Key × Obj) := [(nm "Predictor", .int 12), (nm "Columns", .int 2)]

def sampleAttrs : List (Key × Obj) :=
  [(nm "Filter", .arr [.name (asc "AHx"), .name (asc "RL")]), (nm "DecodeParms", .arr [.null, .dict sampleParams])]

example : Stages sampleAttrs [(.asciiHex, []), (.runLength, sampleParams)] := by
  refine ⟨by decide +kernel, _, _, Or.inr ⟨rfl, by decide +kernel, by decide +kernel⟩, Or.inr ⟨rfl, by decide +kernel, by decide +kernel⟩, Or.inr
    ⟨[.name (asc "AHx"), .name (asc "RL")], .cons ⟨"AHx", by decide, rfl⟩ (.cons ⟨"RL", by decide, rfl⟩ .nil), Or.inl (by decide +kernel),
      Or.inr (Or.inr ⟨[.null, .dict sampleParams], by decide +kernel, .cons (Or.inr ⟨rfl, rfl⟩) (.cons (Or.inl rfl) .nil)⟩)⟩⟩

theorem sample_png : pngEncode 1 [0, 0] [(.up, [1, 2]), (.up, [3, 4])] = [2, 1, 2, 2, 2, 2] := by decide +kernel

-- the run-length code of the predicted rows is 05 02 01 02 02 02 02, here followed by the end marker 80
example : Chain sampleObjects (fun _ _ => False) [(.asciiHex, []), (.runLength, sampleParams)] [1, 2, 3, 4] (asc "0502010202020280>") := by
  refine .cons (mid' := [5, 2, 1, 2, 2, 2, 2, 128]) (mid := [5, 2, 1, 2, 2, 2, 2, 128])
    ⟨asc "0502010202020280", [62], ?_, by decide, by decide +kernel⟩ (Or.inl ⟨Or.inl ⟨by decide +kernel, rfl⟩, rfl⟩)
    (.cons (mid' := [2, 1, 2, 2, 2, 2]) (mid := [1, 2, 3, 4])
      ⟨[.lit [2, 1, 2, 2, 2, 2]], by simp [Run.valid], by decide, Or.inr ⟨[], by decide⟩⟩
      (Or.inr ⟨12, 1, 2, [(.up, [1, 2]), (.up, [3, 4])], by decide, Or.inr ⟨_, rfl, rfl⟩, Or.inl ⟨by decide +kernel, rfl⟩,
        Or.inr ⟨_, rfl, rfl⟩, Or.inl ⟨by decide +kernel, rfl⟩, by simp [PngRows], by simp, rfl, sample_png.symm⟩)
      .nil)
  refine .pair 5 48 53 ?_ ?_ (.pair 2 48 50 ?_ ?_ (.pair 1 48 49 ?_ ?_ (.pair 2 48 50 ?_ ?_ (.pair 2 48 50 ?_ ?_
    (.pair 2 48 50 ?_ ?_ (.pair 2 48 50 ?_ ?_ (.pair 128 56 48 ?_ ?_ .nil))))))) <;> unfold HexDigit <;> decide

example : decodeStream sampleObjects (fun _ => none) none sampleAttrs (asc "0502010202020280>") = .ok [1, 2, 3, 4] := by decide +kernel

/-! ### Counterexamples -/

/-- C08 is false of the code for a filter given as a reference to a name: `TypeError`. -/
theorem indirect_filter_counterexample :
    decodeStream sampleObjects (fun _ => none) none [(nm "Filter", .ref 5 0)] (asc "41>") = .error .typeError := by decide +kernel

/-- C08 is false of the code for a reference to an array of filters: only the first filter is applied. -/
theorem indirect_filters_counterexample :
    decodeStream sampleObjects (fun _ => none) none [(nm "Filter", .ref 6 0)] (asc "004180>") = .ok [0, 0x41, 0x80] := by decide +kernel

/-- C08 is false of the code for parameters given as a reference: `TypeError`. -/
theorem indirect_params_counterexample :
    decodeStream sampleObjects (fun _ => none) none [(nm "Filter", .name (asc "AHx")), (nm "DecodeParms", .ref 7 0)] (asc "02>") =
      .error .typeError := by decide +kernel

/-- C08 is false of the code for an array of parameters that is too short: the filters without parameters are dropped. -/
theorem short_params_counterexample :
    decodeStream sampleObjects (fun _ => none) none
      [(nm "Filter", .arr [.name (asc "AHx"), .name (asc "RL")]), (nm "DecodeParms", .arr [.null])] (asc "004180>") =
      .ok [0, 0x41, 0x80] := by decide +kernel

/-- The TIFF predictor, and filters that are not known, end in a `NameError`: the exception meant for them is not imported. -/
theorem tiff_predictor_counterexample :
    decodeStream sampleObjects (fun _ => none) none
      [(nm "Filter", .name (asc "AHx")), (nm "DecodeParms", .dict [(nm "Predictor", .int 2)])] (asc "02>") = .error .nameError := by
  decide +kernel

/-- Data that zlib cannot decompress count as empty; the remaining filters see empty data, and no error is reported. -/
theorem bad_flate_is_empty (R : Resolver) (inflate : Bytes → Option Bytes) (raw : Bytes) (h : inflate raw = none) :
    decodeStream R inflate none [(nm "Filter", .name (asc "FlateDecode"))] raw = .ok [] := by
  have hg : getFilters R [(nm "Filter", .name (asc "FlateDecode"))] = .ok [(.name (asc "FlateDecode"), .dict [])] := by
    have h1 : getAny [(nm "Filter", .name (asc "FlateDecode"))] ["F", "Filter"] = some (.name (asc "FlateDecode")) := by decide +kernel
    have h2 : getAny [(nm "Filter", .name (asc "FlateDecode"))] ["DP", "DecodeParms", "FDecodeParms"] = none := by decide +kernel
    rw [getFilters, h1, h2]
    rfl
  have hp : predictorParams (.dict []) = .ok none := by decide +kernel
  simp only [decodeStream, decipherData, hg, applyStages, applyFilter, filter_flate "FlateDecode" (by decide), if_true, h, Option.getD_none,
    applyPredictor, hp]

end Pdf
