import Verif.Spec.LooseSession
import Verif.Proof.Loose
import Verif.Proof.SamplesApi
import Verif.Proof.UncheckedApi
import Verif.Props.Session
import Verif.Props.Wrapped

/-! # The sample iterator without overflow checks -/

namespace Claxon

open Spec ReadBytes Claxon.Props

theorem loose_isShape {bps : Nat} {f : Frame} (hw : f.Loose bps) (buffer : VecI32) :
    (blockOf f.reduced buffer).Shape buffer := by
  obtain ⟨h1, h2⟩ := loose_shape hw
  have h3 := size_bounds f.header.blockSize
  have h4 := count_bounds f.header.channels
  refine ⟨⟨by show 1 ≤ f.header.blockSize.size; omega, by show f.header.blockSize.size < _; omega⟩, h4, ?_, rfl⟩
  show (toI32 f.reduced.wrappedChannels.flatten).length = _
  rw [length_toI32, length_flatten_of h2, h1]
  rfl

section Unchecked

attribute [local instance] uncheckedBuild

variable {bytes : List U8} {fault : Option Nat} {r : BufferedReader}

theorem addU_okU {w a b : Nat} (h : a + b < 2 ^ w) : addU w a b = .ok (a + b) := if_pos h

/-- Without overflow checks, the end of a stream is reported only at its end. -/
theorem flat_none {buffer : VecI32} {s s' : Flat} (h : readNextOrEof buffer s = (.ok none, s')) :
    s.bytes.length < 2 ∧ s.fault = none := by
  rw [readNextOrEof_flat, Dec.bind_def] at h
  have hh := header_reads s
  have e : Ref (@readFrameHeaderOrEof Flat _ _ checkedBuild) readFrameHeaderOrEof :=
    same_readFrameHeaderOrEof uncheckedBuild _ _ (refRd_refl _)
  have e1 := e.eq_of (s := s) (by
    intro p hp
    generalize @readFrameHeaderOrEof Flat _ _ checkedBuild s = x at hh hp
    rcases x with ⟨r, s1⟩
    obtain rfl : r = .error (.panic p) := hp
    exact hh)
  rw [← e1, readFrameHeaderOrEof_flat] at hh
  generalize flatHeader s.bytes s = x at hh h
  rcases x with ⟨e1 | _ | hd, s1⟩
  · cases h
  · exact hh
  exfalso
  simp only [flatBody] at h
  rcases hb : hd.bitsPerSample with _ | bps
  · simp only [hb] at h
    cases h
  simp only [hb] at h
  have step : ∀ {α : Type} (m : Dec Flat α) (g : α → Dec Flat (Option Block)) (s : Flat),
      (m >>= g) s = (.ok none, s') → ∃ a s1, g a s1 = (.ok none, s') := by
    intro α m g s h
    rw [Dec.bind_def] at h
    rcases hm : m s with ⟨e | a, s1⟩
    · rw [hm] at h; cases h
    · rw [hm] at h; exact ⟨a, s1, h⟩
  obtain ⟨_, _, h⟩ := step _ _ _ h
  obtain ⟨_, _, h⟩ := step _ _ _ h
  obtain ⟨_, _, h⟩ := step _ _ _ h
  obtain ⟨_, _, h⟩ := step _ _ _ h
  split at h
  · cases h
  obtain ⟨_, _, h⟩ := step _ _ _ h
  obtain ⟨_, _, h⟩ := step _ _ _ h
  cases h

theorem loose_none {bytes : List U8} {fault : Option Nat} {r r' : BufferedReader} (hr : r.Remaining bytes fault)
    (buffer : VecI32) (h : readNextOrEof buffer r = (.ok none, r')) :
    bytes.length < 2 ∧ fault = none ∧ r'.Remaining [] none := by
  have hsim := (simBufferedRd_any uncheckedBuild fault).readNextOrEof buffer
  have hres := Sim.result hsim hr
  rw [h] at hres
  rcases hx : readNextOrEof buffer (⟨bytes, fault⟩ : Flat) with ⟨x, s'⟩
  rw [hx] at hres
  obtain rfl : _ = x := hres
  obtain ⟨h1, h2⟩ := flat_none hx
  obtain ⟨r2, h3, h4⟩ := Sim.ok hsim hr hx
  rw [h] at h3
  cases h3
  simp only at h1 h2
  subst h2
  have h5 : s' = ⟨[], none⟩ := by
    match bytes, h1 with
    | [], _ => rw [readNextOrEof_flat] at hx; cases hx; rfl
    | [a], _ => rw [readNextOrEof_flat] at hx; cases hx; rfl
  subst h5
  exact ⟨h1, rfl, h4⟩

/-- At the end of a stream, it is reported. -/
theorem loose_end {bytes : List U8} {r : BufferedReader} (hr : r.Remaining bytes none) (h2 : bytes.length < 2)
    (buffer : VecI32) : ∃ r', readNextOrEof buffer r = (.ok none, r') ∧ r'.Remaining [] none := by
  have hsim := (simBufferedRd_any uncheckedBuild none).readNextOrEof buffer
  have h5 : readNextOrEof buffer (⟨bytes, none⟩ : Flat) = (.ok none, ⟨[], none⟩) := by
    match bytes, h2 with
    | [], _ => rw [readNextOrEof_flat]; rfl
    | [a], _ => rw [readNextOrEof_flat]; rfl
  exact Sim.ok hsim hr h5

/-- Anywhere else, and without a frame, there is an error. -/
theorem loose_error {bytes : List U8} {fault : Option Nat} {r : BufferedReader} (hr : r.Remaining bytes fault)
    (hl : bytes.length < 2 ^ 64) (hf : ∀ bps f, Frame.Loose bps f → ¬ f.looseBytes bps <+: bytes)
    (h2 : 2 ≤ bytes.length ∨ fault ≠ none) (buffer : VecI32) :
    ∃ e r', readNextOrEof buffer r = (.error (.err e), r') := by
  have h := C70_frame hr hl buffer
  rcases hx : readNextOrEof buffer r with ⟨x, r'⟩
  rw [hx] at h
  rcases h with ⟨o, ho⟩ | ⟨e, he⟩
  · obtain rfl : x = .ok o := ho
    exfalso
    rcases o with _ | b
    · obtain ⟨h3, h4, -⟩ := loose_none hr buffer hx
      rcases h2 with h2 | h2
      · omega
      · exact h2 h4
    · obtain ⟨bps, f, rest, h3, rfl, -⟩ := frame_loose hr hl buffer hx
      exact hf bps f h3 ⟨rest, rfl⟩
  · exact ⟨e, r', by rw [show x = _ from he]⟩

/-! ### The iterator -/

variable {σ : Type} [ReadBytes σ]

theorem next_insideU {b : Block} {buffer : VecI32} (h : b.Shape buffer) (s : σ) {p : Nat}
    (hp : p + 1 < b.duration * b.channels) :
    ∃ x, b.nth (p + 1) = .ok x ∧
      FlacSamples.next (FlacSamples.at s b p) = (.ok (some (.ok x)), FlacSamples.at s b (p + 1)) := by
  obtain ⟨x, h1, h2⟩ := @FlacSamples.next_inside σ _ _ b buffer h s p hp
  refine ⟨x, h1, ?_⟩
  have e : Ref (@FlacSamples.next σ _ _ checkedBuild _) FlacSamples.next :=
    same_samplesNext uncheckedBuild _ _ (refRd_refl _)
  rw [← h2]
  refine (e.eq_of fun p hp => ?_)
  rw [h2] at hp
  cases hp

/-- What a call does at the end of a block. -/
def afterBlockU (buffer : VecI32) (s : σ) : Except Fail (Option (Except Error I32)) × FlacSamples σ :=
  match readNextOrEof buffer s with
  | (.ok (some b), s') => (FlacSamples.current (FlacSamples.at s' b 0))
  | (.ok none, s') => (.ok none, ⟨s', .empty, 0, 0, false⟩)
  | (.error (.err e), s') => (.ok (some (.error e)), ⟨s', .empty, 0, 0, true⟩)
  | (.error f, s') => (.error f, ⟨s', .empty, 0, 0, false⟩)

theorem next_atEndU {it : FlacSamples σ} {s : σ} {buffer : VecI32} (h : it.AtEnd s buffer) :
    it.next = afterBlockU buffer s := by
  obtain ⟨hr, hbuf, hf, hc, hs, hc', hs'⟩ := h
  unfold FlacSamples.next
  rw [Dec.bind_get_run]
  rw [if_neg (show ¬ it.hasFailed = true by simp [hf]), Dec.bind_liftM_of (addU_okU hc'), if_pos hc,
    Dec.bind_liftM_of (addU_okU hs'), Dec.bind_set_run, if_pos hs]
  unfold FlacSamples.nextBlock
  rw [Dec.bind_get_run, Dec.bind_set_run]
  simp only [hbuf]
  rw [Dec.bind_def]
  simp only [Dec.catchErr, FlacSamples.onReader, Dec.zoom_run, hr]
  unfold afterBlockU
  rcases readNextOrEof buffer s with ⟨e | _ | b, s'⟩
  · cases e <;> simp [Dec.bind_get_run, hf]; rfl
  · simp [hf]
  · simp only
    rw [Dec.bind_get_run, Dec.bind_set_run]
    simp [FlacSamples.at, hf]

theorem next_failedU {it : FlacSamples σ} (h : it.hasFailed = true) : it.next = (.ok none, it) := by
  unfold FlacSamples.next
  rw [Dec.bind_get_run]
  rw [if_pos h]
  rfl

omit [ReadBytes σ] in
theorem currentU {it : FlacSamples σ} {x : I32}
    (h : @Block.sample checkedBuild _ it.block it.channel it.sample = .ok x) :
    FlacSamples.current it = (.ok (some (.ok x)), it) := by
  have e : RefR (@Block.sample checkedBuild _ it.block it.channel it.sample) (it.block.sample it.channel it.sample) :=
    same_blockSample _ _ _ uncheckedBuild
  have h' : it.block.sample it.channel it.sample = .ok x := by
    rcases e with ⟨p, hp⟩ | e
    · rw [h] at hp; cases hp
    · rw [← h]; exact e.symm
  unfold FlacSamples.current
  rw [Dec.bind_get_run, Dec.bind_liftM_of h']
  rfl

theorem calls_insideU {b : Block} {buffer : VecI32} (h : b.Shape buffer) (s : σ) (more : Nat) :
    ∀ k p, p + 1 + k = b.duration * b.channels →
      calls FlacSamples.next (k + more) (FlacSamples.at s b p) =
        (List.range' (p + 1) k).map (fun q => yieldOf (b.nth q)) ++
          calls FlacSamples.next more (FlacSamples.at s b (p + k))
  | 0, p, _ => by rw [Nat.zero_add]; rfl
  | k + 1, p, hp => by
    obtain ⟨x, h1, h2⟩ := next_insideU h s (p := p) (by omega)
    rw [show k + 1 + more = k + more + 1 by omega, calls, h2]
    simp only
    rw [calls_insideU h s more k (p + 1) (by omega), List.range'_succ, List.map_cons, List.cons_append, h1,
      show p + 1 + k = p + (k + 1) by omega]
    rfl

theorem calls_blockU {it : FlacSamples σ} {s s' : σ} {buffer : VecI32} {b : Block}
    (h : it.AtEnd s buffer) (hb : readNextOrEof buffer s = (.ok (some b), s')) (hs : b.Shape buffer) :
    ∃ it', it'.AtEnd s' b.intoBuffer ∧ ∀ more,
      calls FlacSamples.next ((blockSamples b).length + more) it =
        (blockSamples b).map yieldOf ++ calls FlacSamples.next more it' := by
  obtain ⟨x, h1, h2⟩ := hs.nth_zero
  have h2' : it.next = (.ok (some (.ok x)), FlacSamples.at s' b 0) := by
    rw [next_atEndU h]
    unfold afterBlockU
    rw [hb]
    apply currentU
    show @Block.sample checkedBuild _ b (0 % b.channels) (0 / b.channels) = _
    rw [Nat.zero_mod, Nat.zero_div]
    exact h2
  have hpos : 0 < b.duration * b.channels := by
    have := hs.channels; have := hs.blockSize
    exact Nat.mul_pos (by show 0 < b.blockSize; omega) (by omega)
  obtain ⟨n, hn⟩ : ∃ n, b.duration * b.channels = n + 1 := ⟨b.duration * b.channels - 1, by omega⟩
  refine ⟨FlacSamples.at s' b n, FlacSamples.atEnd_at hs s' (by omega), fun more => ?_⟩
  rw [length_blockSamples, blockSamples_eq (by have := hs.channels; omega), List.map_map]
  rw [hn, show n + 1 + more = n + more + 1 by omega, calls, h2']
  simp only
  rw [calls_insideU hs s' more n 0 (by omega), List.range_eq_range', List.range'_succ, List.map_cons,
    List.cons_append, Nat.zero_add, Nat.zero_add]
  simp only [Function.comp, h1]
  rfl

theorem calls_failedU {it : FlacSamples σ} (h : it.hasFailed = true) (n : Nat) :
    calls FlacSamples.next n it = List.replicate n (.ok none) := by
  induction n with
  | zero => rfl
  | succ n ih => rw [calls, next_failedU h, ih]; rfl

theorem calls_endU {it : FlacSamples BufferedReader} {r : BufferedReader} {bytes : List U8} {buffer : VecI32}
    (hit : it.AtEnd r buffer) (h : r.Remaining bytes none) (h2 : bytes.length < 2) (n : Nat) :
    calls FlacSamples.next n it = List.replicate n (.ok none) := by
  induction n generalizing r it bytes buffer with
  | zero => rfl
  | succ n ih =>
    obtain ⟨r', h3, h4⟩ := loose_end h h2 buffer
    have h5 : it.next = (.ok none, FlacSamples.new r') := by
      rw [next_atEndU hit]
      unfold afterBlockU
      rw [h3]
      rfl
    rw [calls, h5, ih (FlacSamples.atEnd_new r') h4 (by decide)]
    rfl

theorem loose_size {bps : Nat} {f : Frame} (hw : f.Loose bps) :
    (f.reduced.wrappedChannels.headD []).length = f.header.blockSize.size := by
  obtain ⟨h1, h2⟩ := loose_shape hw
  have h4 := count_bounds f.header.channels
  rcases h : f.reduced.wrappedChannels with _ | ⟨c, cs⟩
  · rw [h] at h1
    simp at h1
    omega
  · exact h2 c (by simp [h])

theorem calls_decodesU {fault : Option Nat} {bytes : List U8} {blocks : List (Nat × List (List Int))} {finished : Bool}
    (hd : DecodesLoosely fault bytes blocks finished) : ∀ {it : FlacSamples BufferedReader} {r : BufferedReader}
      {buffer : VecI32}, it.AtEnd r buffer → r.Remaining bytes fault → bytes.length < 2 ^ 64 →
    ∃ last : Except Fail (Option (Except Error I32)),
      (if finished then last = .ok none else ∃ e, last = .ok (some (.error e))) ∧ ∀ more,
      calls FlacSamples.next ((samplesOf blocks).length + 1 + more) it =
        (samplesOf blocks).map yields ++ last :: List.replicate more (.ok none) := by
  induction hd with
  | frame bps f hw rest blocks finished next ih =>
    intro it r buffer hit hr hl
    obtain ⟨r2, h2, h3⟩ := Sim.ok ((simBufferedRd_any uncheckedBuild fault).readNextOrEof buffer) hr
      (loose_decoded hw buffer rest fault hl)
    have hs := loose_isShape hw buffer
    obtain ⟨it', h4, h5⟩ := calls_blockU hit h2 hs
    obtain ⟨last, h6, h7⟩ := ih h4 h3 (by rw [List.length_append] at hl; omega)
    refine ⟨last, h6, fun more => ?_⟩
    have h8 : blockSamples (blockOf f.reduced buffer) =
        (interleave (f.reduced.wrappedChannels.headD []).length f.reduced.wrappedChannels).map
          fun v => .ok (BitVec.ofInt 32 v) := by
      rw [blockSamples_holds hs (loose_holds hw buffer), loose_size hw]
      rfl
    have h9 := h5 ((samplesOf blocks).length + 1 + more)
    rw [h8, h7, List.length_map, List.map_map] at h9
    simp only [samplesOf, List.flatMap_cons, List.length_append, List.map_append, List.append_assoc] at h9 ⊢
    rw [show ∀ a b : Nat, a + b + 1 + more = a + (b + 1 + more) by omega, h9]
    rfl
  | finish bytes h2 hf =>
    intro it r buffer hit hr hl
    subst hf
    refine ⟨_, rfl, fun more => ?_⟩
    rw [calls_endU hit hr h2, show (samplesOf []).length + 1 + more = more + 1 by simp [samplesOf]; omega,
      List.replicate_succ]
    rfl
  | failed bytes hf h2 =>
    intro it r buffer hit hr hl
    obtain ⟨e, r', h3⟩ := loose_error hr hl hf h2 buffer
    refine ⟨_, ⟨e, rfl⟩, fun more => ?_⟩
    have h5 : it.next = (.ok (some (.error e)), ⟨r', .empty, 0, 0, true⟩) := by
      rw [next_atEndU hit]
      unfold afterBlockU
      rw [h3]
    rw [show (samplesOf []).length + 1 + more = more + 1 by simp [samplesOf]; omega, calls, h5, calls_failedU rfl]
    rfl

theorem looseBytes_pos (bps : Nat) (f : Frame) : 2 ≤ (f.looseBytes bps).length := by
  unfold Frame.looseBytes
  rw [List.length_append, beBytes_two_length]
  omega

/-- Every input is decoded to something. -/
theorem decodesLoosely_total (fault : Option Nat) : ∀ (n : Nat) (bytes : List U8), bytes.length ≤ n →
    ∃ blocks finished, DecodesLoosely fault bytes blocks finished := by
  intro n
  induction n with
  | zero =>
    intro bytes hn
    by_cases h2 : fault = none
    · exact ⟨_, _, .finish bytes (by omega) h2⟩
    · refine ⟨_, _, .failed bytes ?_ (.inr h2)⟩
      rintro bps f hf ⟨rest, hr⟩
      have h3 := congrArg List.length hr
      have h4 := looseBytes_pos bps f
      rw [List.length_append] at h3
      omega
  | succ n ih =>
    intro bytes hn
    by_cases h1 : ∃ bps f rest, Frame.Loose bps f ∧ bytes = f.looseBytes bps ++ rest
    · obtain ⟨bps, f, rest, hf, rfl⟩ := h1
      obtain ⟨blocks, finished, h⟩ := ih rest (by
        have := looseBytes_pos bps f
        rw [List.length_append] at hn
        omega)
      exact ⟨_, _, .frame bps f hf rest blocks finished h⟩
    · by_cases h2 : bytes.length < 2 ∧ fault = none
      · exact ⟨_, _, .finish bytes h2.1 h2.2⟩
      · refine ⟨_, _, .failed bytes ?_ ?_⟩
        · rintro bps f hf ⟨rest, hr⟩
          exact h1 ⟨bps, f, rest, hf, hr.symm⟩
        · by_cases h3 : fault = none
          · exact .inl (Nat.le_of_not_lt fun h => h2 ⟨h, h3⟩)
          · exact .inr h3

/-- What the first call returns. -/
theorem decodesLoosely_first {fault : Option Nat} {bytes : List U8} {blocks : List (Nat × List (List Int))}
    {finished : Bool} (h : DecodesLoosely fault bytes blocks finished) (hl : bytes.length < 2 ^ 64) {r : BufferedReader}
    (hr : r.Remaining bytes fault) :
    (blocks = [] ∧ if finished then (readNextOrEof .empty r).1 = .ok none
      else ∃ e, (readNextOrEof .empty r).1 = .error (.err e)) ∨
    ∃ bps f rest more, Frame.Loose bps f ∧ bytes = f.looseBytes bps ++ rest ∧
      blocks = (f.header.time, f.reduced.wrappedChannels) :: more ∧ DecodesLoosely fault rest more finished := by
  cases h with
  | frame bps f hw rest blocks finished next => exact .inr ⟨bps, f, rest, blocks, hw, rfl, rfl, next⟩
  | finish bytes h2 hf =>
    subst hf
    obtain ⟨r', h, -⟩ := loose_end hr h2 .empty
    exact .inl ⟨rfl, by rw [h]; rfl⟩
  | failed bytes hf h2 =>
    obtain ⟨e, r', h⟩ := loose_error hr hl hf h2 .empty
    exact .inl ⟨rfl, e, by rw [h]⟩

theorem decodesLoosely_unique {fault : Option Nat} {bytes : List U8} {blocks : List (Nat × List (List Int))}
    {finished : Bool} (h : DecodesLoosely fault bytes blocks finished) (hl : bytes.length < 2 ^ 64) :
    ∀ {blocks' : List (Nat × List (List Int))} {finished' : Bool}, DecodesLoosely fault bytes blocks' finished' →
      blocks' = blocks ∧ finished' = finished := by
  have hend : ∀ {bytes : List U8} {finished : Bool} {blocks' : List (Nat × List (List Int))} {finished' : Bool},
      bytes.length < 2 ^ 64 → DecodesLoosely fault bytes [] finished → DecodesLoosely fault bytes blocks' finished' →
      blocks' = [] ∧ finished' = finished := by
    intro bytes finished blocks' finished' hl h h'
    obtain ⟨r, hr⟩ := exists_remaining bytes fault
    rcases decodesLoosely_first h hl hr with ⟨-, h1⟩ | ⟨_, _, _, _, _, _, h1, _⟩
    · rcases decodesLoosely_first h' hl hr with ⟨h2, h3⟩ | ⟨bps, f, rest, more, hw, rfl, _, _⟩
      · refine ⟨h2, ?_⟩
        generalize (readNextOrEof .empty r).1 = x at h1 h3
        cases finished <;> cases finished'
        · rfl
        · obtain ⟨e, rfl⟩ := h1
          cases h3
        · obtain ⟨e, rfl⟩ := h3
          cases h1
        · rfl
      · obtain ⟨b, r', h4, _⟩ := loose_buffered hw hr hl .empty
        rw [h4] at h1
        cases finished
        · obtain ⟨e, h1⟩ := h1
          cases h1
        · cases h1
    · cases h1
  induction h with
  | frame bps f hw rest blocks finished next ih =>
    intro blocks' finished' h'
    obtain ⟨r, hr⟩ := exists_remaining (f.looseBytes bps ++ rest) fault
    obtain ⟨b, r₁, h1, h2, h3⟩ := loose_buffered hw hr hl .empty
    rcases decodesLoosely_first h' hl hr with ⟨-, h4⟩ | ⟨bps', f', rest', more, hw', hb, rfl, h'⟩
    · rw [h1] at h4
      cases finished'
      · obtain ⟨e, h4⟩ := h4
        cases h4
      · cases h4
    · rw [hb] at hr
      obtain ⟨b', r₁', h1', h2', h3'⟩ := loose_buffered hw' hr (hb ▸ hl) .empty
      rw [h1'] at h1
      obtain ⟨h4, rfl⟩ := Prod.mk.inj h1
      rw [Option.some.inj (Except.ok.inj h4)] at h3'
      obtain ⟨h5, h6⟩ := holds_unique h3 h3'
      obtain ⟨rfl, -⟩ := h2.unique h2'
      obtain ⟨rfl, rfl⟩ := ih (by rw [List.length_append] at hl; omega) h'
      exact ⟨by rw [h5, h6], rfl⟩
  | finish bytes h2 hf => exact fun {_ _} h => hend hl (.finish bytes h2 hf) h
  | failed bytes hf h2 => exact fun {_ _} h => hend hl (.failed bytes hf h2) h

/-- Where overflow checks make no difference. -/
theorem decodesLoosely_of {fault : Option Nat} {bytes : List U8} {blocks : List (Nat × List (List Int))}
    {last : SessionEnd} (h : Decodes fault bytes blocks last) (hl : bytes.length < 2 ^ 64) (ho : last ≠ .overflowed) :
    ∃ finished, (finished = true ↔ last = .finished) ∧ DecodesLoosely fault bytes blocks finished := by
  have hend : ∀ {bytes : List U8} {e : Error}, bytes.length < 2 ^ 64 → Decodes fault bytes [] (.failed e) →
      ∃ finished : Bool, (finished = true ↔ SessionEnd.failed e = .finished) ∧
        DecodesLoosely fault bytes [] finished := by
    intro bytes e hl h
    obtain ⟨r, hr⟩ := exists_remaining bytes fault
    have hu : ¬ Uncountable bytes := by
      rintro ⟨used, rest, rfl, hu⟩
      cases (decodes_unique (.uncountable used rest hu) h).2
    rcases decodes_first h .empty hr with ⟨-, h1⟩ | ⟨_, _, _, _, _, _, h1, _⟩
    · refine ⟨false, by simp, .failed bytes ?_ ?_⟩
      · rintro bps f hw ⟨rest, rfl⟩
        obtain ⟨b, r', h2, _⟩ := loose_buffered hw hr hl .empty
        have h3 := C86_same .empty hr hu
        rw [h2] at h3
        rw [← h3] at h1
        cases h1
      · by_cases h2 : bytes.length < 2
        · refine .inr ?_
          rintro rfl
          rw [short_none .empty hr h2] at h1
          cases h1
        · exact .inl (by omega)
    · cases h1
  induction h with
  | frame bps f hw rest blocks last next ih =>
    rw [List.length_append] at hl
    obtain ⟨finished, h1, h2⟩ := ih (by omega) ho
    obtain ⟨h3, h4, h5⟩ := loose_of_wellFormed hw
    refine ⟨finished, h1, ?_⟩
    have := DecodesLoosely.frame bps f h3 rest blocks finished h2
    rwa [h4, h5] at this
  | refused used rest e h => exact hend hl (.refused used rest e h)
  | uncountable used rest h => exact absurd rfl ho
  | finish bytes h2 hf => exact ⟨true, by simp, .finish bytes h2 hf⟩
  | cut bytes hf he hz h2 => exact hend hl (.cut bytes hf he hz h2)

end Unchecked

end Claxon
