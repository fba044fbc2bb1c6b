import Verif.Model.Benches
import Verif.Props.Bench
import Verif.Props.Lazy
import Verif.Props.Release

/-! # C90: the benchmarks in /repo/benches -/

namespace Claxon.Props

open Claxon Spec ReadBytes Examples

variable {fuel : Nat} {data : List U8}

/-- The numbers of samples of the blocks that `n` calls decode, if the blocks of the stream have the given numbers of
samples, and one call is needed to start again after the last block. -/
def decodedIn (lens : List Nat) (n : Nat) : List Nat :=
  (List.range n).filterMap fun i => lens[i % (lens.length + 1)]?

/-- What comes of a benchmark with `n` calls, for an input with the given outcome. -/
def testsampleOutcome (n : Nat) : SessionResult → Res Nat
  | .failed _ => .error (.panic .explicit)
  | .opened info _ blocks last =>
    let decoded := match last with
      | .finished => decodedIn (lensOf blocks) n
      | _ => (lensOf blocks).take n
    let bytes := decoded.sum * (info.bitsPerSample / 8)
    if 2 ^ 32 ≤ bytes then .error (.panic .overflow)
    else match last, decide (blocks.length < n) with
      | .failed _, true => .error (.panic .explicit)
      | .overflowed, true => .error (.panic .overflow)
      | _, _ => if decoded = [] then .error (.panic .divZero) else .ok (bytes / decoded.length)

theorem decodedIn_take {lens : List Nat} {n : Nat} (h : n ≤ lens.length + 1) : decodedIn lens n = lens.take n := by
  induction n with
  | zero => rfl
  | succ n ih =>
    have ih' := ih (by omega)
    rw [decodedIn] at ih' ⊢
    rw [List.range_succ, List.filterMap_append, ih']
    simp only [List.filterMap_cons, List.filterMap_nil, Nat.mod_eq_of_lt (show n < lens.length + 1 by omega)]
    rw [List.take_add_one]
    cases lens[n]? <;> rfl

theorem decodedIn_cycle (lens : List Nat) (m : Nat) :
    decodedIn lens (lens.length + 1 + m) = lens ++ decodedIn lens m := by
  have h := decodedIn_take (Nat.le_refl (lens.length + 1))
  rw [List.take_of_length_le (Nat.le_succ _)] at h
  rw [decodedIn] at h ⊢
  rw [List.range_add, List.filterMap_append, h, List.filterMap_map, decodedIn]
  congr 2
  funext i
  simp only [Function.comp, Nat.add_mod_left]

theorem benchSteps_add (bps : Nat) : ∀ (m n : Nat) (st : BenchState),
    benchSteps fuel bps (m + n) st = (benchSteps fuel bps m st >>= benchSteps fuel bps n)
  | 0, n, st => by rw [Nat.zero_add]; rfl
  | m + 1, n, st => by
    rw [Nat.add_right_comm, benchSteps, benchSteps]
    cases benchStep fuel bps st with
    | error f => rfl
    | ok st' => exact benchSteps_add bps m n st'

theorem readsBlocks_take {r r' : BufferedReader} {buffer buffer' : VecI32} {bs : List Block}
    (h : ReadsBlocks r buffer bs r' buffer') : ∀ n, ∃ r'' buffer'', ReadsBlocks r buffer (bs.take n) r'' buffer'' := by
  induction h with
  | nil => exact fun n => by rw [List.take_nil]; exact ⟨_, _, .nil⟩
  | cons h next ih =>
    rintro (_ | n)
    · exact ⟨_, _, .nil⟩
    · obtain ⟨_, _, h'⟩ := ih n
      exact ⟨_, _, .cons h h'⟩

theorem lensOf_cons {s s' : BufferedReader} {buffer : VecI32} {b : Block} {x : Nat × List (List Int)}
    {blocks : List (Nat × List (List Int))} (h : readNextOrEof buffer s = (.ok (some b), s')) (hx : b.Holds x.1 x.2) :
    lensOf (x :: blocks) = b.duration * x.2.length :: lensOf blocks := by
  have hp := post_block _ _ _ _ h _ rfl
  have hc := hx.count
  have hd : (x.2.headD []).length = b.duration := by
    rcases hx2 : x.2 with - | ⟨c, cs⟩
    · rw [hx2] at hc
      have := hp.channels
      simp at hc
      omega
    · exact hx.duration c (by rw [hx2]; simp)
  rw [lensOf, List.map_cons, hd]
  rfl

/-- The calls that decode the blocks of a stream. -/
theorem benchSteps_blocks {r r' : BufferedReader} {buffer buffer' : VecI32} {bs : List Block}
    {blocks : List (Nat × List (List Int))} (h : ReadsBlocks r buffer bs r' buffer')
    (hb : List.Forall₂ (fun (b : Block) (x : Nat × List (List Int)) => b.Holds x.1 x.2) bs blocks)
    (bps : Nat) (reader : FlacReader BufferedReader) :
    ∀ bytes iterations, bytes < 2 ^ 32 → iterations + bs.length < 2 ^ 64 →
      benchSteps fuel bps bs.length ⟨{ reader with input := .full r }, bytes, buffer, iterations⟩ =
        if 2 ^ 32 ≤ bytes + (lensOf blocks).sum * (bps / 8) then .error (.panic .overflow)
        else .ok ⟨{ reader with input := .full r' }, bytes + (lensOf blocks).sum * (bps / 8), buffer',
          iterations + bs.length⟩ := by
  induction h generalizing blocks with
  | nil =>
    intro bytes iterations h1 h2
    cases hb
    rw [if_neg (by simp [lensOf]; omega)]
    simp [benchSteps, lensOf]
  | @cons s s₁ s' buffer buffer' b bs h next ih =>
    intro bytes iterations h1 h2
    obtain ⟨x, blocks, hx, hbs, rfl⟩ : ∃ x bl, b.Holds x.1 x.2 ∧ List.Forall₂ _ bs bl ∧ blocks = x :: bl := by
      cases hb with
      | cons h1 h2 => exact ⟨_, _, h1, h2, rfl⟩
    rw [lensOf_cons h hx, List.sum_cons, Nat.add_mul]
    generalize hw : b.duration * x.2.length * (bps / 8) = w
    rw [List.length_cons] at h2 ⊢
    rw [benchSteps]
    have hstep : benchStep fuel bps ⟨{ reader with input := .full s }, bytes, buffer, iterations⟩ =
        if 2 ^ 32 ≤ bytes + w then .error (.panic .overflow)
        else .ok ⟨{ reader with input := .full s₁ }, bytes + w, b.intoBuffer, iterations + 1⟩ := by
      unfold benchStep
      show (match readNextOrEof buffer s with
        | (.ok (some b), inp') => countBlock bps ⟨{ reader with input := .full s }, bytes, buffer, iterations⟩ b inp'
        | (.ok none, inp') => _
        | (.error (.err _), _) => _
        | (.error f, _) => _) = _
      rw [h]
      show (do
        let len ← b.len
        let size ← mulU 32 len (bps / 8)
        let bytes ← addU 32 bytes size
        let iterations ← addU 64 iterations 1
        pure ⟨{ reader with input := .full s₁ }, bytes, b.intoBuffer, iterations⟩ : Res BenchState) = _
      rw [hx.len]
      show (mulU 32 (b.duration * x.2.length) (bps / 8) >>= _) = _
      rw [mulU, hw]
      split
      · show (addU 32 bytes w >>= _) = _
        rw [addU]
        split
        · rw [if_neg (by omega)]
          show (addU 64 iterations 1 >>= _) = _
          rw [addU, if_pos (by omega)]
          rfl
        · rw [if_pos (by omega)]
          rfl
      · rw [if_pos (by omega)]
        rfl
    rw [hstep]
    split
    · rw [if_pos (by omega)]
      rfl
    · refine (ih hbs (bytes + w) (iterations + 1) (by omega) (by omega)).trans ?_
      rw [Nat.add_assoc bytes, Nat.add_assoc iterations, Nat.add_comm 1]

/-- The first calls, or all of them up to the end of the stream. -/
theorem benchSteps_take {r r' : BufferedReader} {buffer buffer' : VecI32} {bs : List Block}
    {blocks : List (Nat × List (List Int))} (h : ReadsBlocks r buffer bs r' buffer')
    (hb : List.Forall₂ (fun (b : Block) (x : Nat × List (List Int)) => b.Holds x.1 x.2) bs blocks)
    (bps : Nat) (reader : FlacReader BufferedReader) {n bytes iterations : Nat} (h1 : bytes < 2 ^ 32)
    (h2 : iterations + n < 2 ^ 64) (hn : n ≤ blocks.length) :
    (benchSteps fuel bps n ⟨{ reader with input := .full r }, bytes, buffer, iterations⟩ >>= bytesPerIteration) =
        if 2 ^ 32 ≤ bytes + ((lensOf blocks).take n).sum * (bps / 8) then .error (.panic .overflow)
        else if iterations + n = 0 then .error (.panic .divZero)
        else .ok ((bytes + ((lensOf blocks).take n).sum * (bps / 8)) / (iterations + n)) := by
  have hl := hb.length_eq
  obtain ⟨r'', buffer'', h'⟩ := readsBlocks_take h n
  have := benchSteps_blocks (fuel := fuel) h' (List.forall₂_take n hb) bps reader bytes iterations h1
    (by rw [List.length_take]; omega)
  rw [List.length_take, hl, Nat.min_eq_left hn, show lensOf (blocks.take n) = (lensOf blocks).take n from List.map_take]
    at this
  rw [this]
  split <;> rfl

/-- A reader that was opened, with any number of blocks read after that, is refreshed to what it was after opening. -/
theorem refreshReader_of {reader : FlacReader BufferedReader} {inp : BufferedReader}
    (hnew : FlacReader.new fuel (memory data) = .ok reader) (h : inp.inner.outcome = (memory data).outcome) :
    refreshReader fuel { reader with input := .full inp } = .ok reader := by
  have hs : rewound (FlacReader.intoInner { reader with input := .full inp }) = memory data := by
    show (⟨inp.inner.outcome, 0⟩ : Src) = memory data
    rw [h]
    rfl
  rw [refreshReader, hs, hnew]

theorem readsBlocks_outcome {outcome : Nat → ReadOutcome} {r r' : BufferedReader} {buffer buffer' : VecI32}
    {bs : List Block} (h : ReadsBlocks r buffer bs r' buffer') :
    r.Good ∧ r.inner.outcome = outcome → r'.Good ∧ r'.inner.outcome = outcome := by
  induction h with
  | nil => exact id
  | @cons s s₁ s' buffer buffer' b bs h next ih =>
    intro hs
    have := frame_invariant (buffered_neverPanics outcome).toNeverPanics buffer s hs
    rw [h] at this
    exact ih this

/-- The call after the last block of a stream. -/
theorem benchStep_end {r : BufferedReader} {buffer : VecI32} {last : SessionEnd} (bps : Nat)
    {reader : FlacReader BufferedReader} (hnew : FlacReader.new fuel (memory data) = .ok reader)
    (hr : r.Good ∧ r.inner.outcome = (memory data).outcome) (he : (readNextOrEof buffer r).1 = endOf last)
    (bytes iterations : Nat) :
    benchStep fuel bps ⟨{ reader with input := .full r }, bytes, buffer, iterations⟩ =
      match (generalizing := false) last with
      | .finished => .ok ⟨reader, bytes, .empty, iterations⟩
      | .failed _ => .error (.panic .explicit)
      | .overflowed => .error (.panic .overflow) := by
  have hinv := (frame_invariant (buffered_neverPanics _).toNeverPanics buffer r hr).2
  unfold benchStep
  show (match readNextOrEof buffer r with
    | (.ok (some b), inp') => countBlock bps ⟨{ reader with input := .full r }, bytes, buffer, iterations⟩ b inp'
    | (.ok none, inp') => (refreshReader fuel { reader with input := .full inp' } >>= fun reader =>
        pure ⟨reader, bytes, .empty, iterations⟩)
    | (.error (.err _), _) => panicRes .explicit
    | (.error f, _) => .error f) = _
  generalize readNextOrEof buffer r = x at he hinv
  obtain ⟨x, r'⟩ := x
  obtain rfl : x = endOf last := he
  cases last with
  | finished =>
    show (refreshReader fuel { reader with input := .full r' } >>= _) = _
    rw [refreshReader_of hnew hinv]
    rfl
  | failed e => rfl
  | overflowed => rfl

/-- What opening a stream leads to. -/
theorem opened_of {info : StreamInfo} {vc : Option VorbisComment} {blocks : List (Nat × List (List Int))}
    {last : SessionEnd} (h : Session .default none data (.opened info vc blocks last)) (hf : data.length < fuel) :
    ∃ (reader : FlacReader BufferedReader) (r r' : BufferedReader) (bs : List Block) (buffer' : VecI32),
      FlacReader.new fuel (memory data) = .ok reader ∧ reader = { reader with input := .full r } ∧
      reader.streaminfo = info ∧ info.bitsPerSample < 8 * 16 ∧
      (r'.Good ∧ r'.inner.outcome = (memory data).outcome) ∧
      ReadsBlocks r .empty bs r' buffer' ∧
      List.Forall₂ (fun (b : Block) (x : Nat × List (List Int)) => b.Holds x.1 x.2) bs blocks ∧
      (readNextOrEof buffer' r').1 = endOf last := by
  have hd := memory_delivers data
  cases h with
  | opened first more info vc hm rest blocks last h =>
    generalize hdata : streamMarker ++ metadataBytes (first :: more) ++ rest = data at *
    have hlen := length_metadataBytes more
    have hle : more.length + rest.length < fuel := by
      rw [← hdata, metadataBytes_cons] at hf
      simp only [List.length_append] at hf
      omega
    obtain ⟨r, h1, h2⟩ := newExt_of (fuel := fuel) hm (by omega)
      (show (memory data).Delivers (streamMarker ++ metadataBytes (first :: more) ++ rest) none by rw [hdata]; exact hd)
    have hnew : FlacReader.new fuel (memory data) = .ok (FlacReader.make .default info vc r) := h1
    have hr : r.Good ∧ r.inner.outcome = (memory data).outcome := by
      have hg := (safe_openStream (buffered_neverPanics (memory data).outcome) fuel FlacReaderOptions.default _
        (buffered_new (memory_contract data))).2
      unfold FlacReader.newExt FlacReader.newExtGen at h1
      rcases hx : openStream fuel FlacReaderOptions.default (BufferedReader.new (memory data)) with ⟨f | ⟨info', vc'⟩, r'⟩
      · rw [hx] at h1; cases h1
      · rw [hx] at h1 hg
        cases h1
        exact hg
    have hinfo : info.Legal := BodyEncodes.info_legal first.encodes hm.streaminfo
    have hbps := hinfo.bitsPerSample
    obtain ⟨bs, r', buffer', h3, h4, h5⟩ := C84_blocks h .empty h2
    exact ⟨_, r, r', bs, buffer', hnew, rfl, rfl, by show info.bitsPerSample < _; omega, readsBlocks_outcome h3 hr, h3, h4, h5⟩

/-- **C90.** What a benchmark in /repo/benches does is determined by the outcome (C84) of the input and the number of
calls. It panics deliberately if the file cannot be opened, and in the first call after the last block before an error.
At the end of a stream without errors it starts again, and decodes the same blocks again, however often; opening the
stream again never fails, so the uninitialised reader is never dropped. The result is the mean size of the blocks that
were decoded. It overflows when this is more than 4 GiB in total, and divides by zero if no block was decoded. -/
theorem C90_bench {result : SessionResult} (h : Session .default none data result) (hf : data.length < fuel)
    {n : Nat} (hn : n < 2 ^ 64) : benchTestsample fuel n data = testsampleOutcome n result := by
  have hd := memory_delivers data
  have hsession := h
  cases h with
  | refused used rest e h =>
    have h1 : FlacReader.newExt fuel (memory (used ++ rest)) .default = .error (.err e) :=
      C84_session (.refused used rest e h) hd (by omega)
    unfold benchTestsample
    rw [show FlacReader.new fuel (memory (used ++ rest)) = .error (.err e) from h1]
    rfl
  | cut _ hm he =>
    have h1 : FlacReader.newExt fuel (memory data) .default = _ :=
      C84_session (.cut data hm he) hd (by omega)
    unfold benchTestsample
    rw [show FlacReader.new fuel (memory data) = _ from h1]
    rfl
  | opened first more info vc hm rest blocks last h =>
    obtain ⟨reader, r, r', bs, buffer', hnew, hinp, hinfo', hbps, hr', h3, h4, h5⟩ := opened_of hsession hf
    clear hsession
    generalize streamMarker ++ metadataBytes (first :: more) ++ rest = data at *
    have hstart : benchTestsample fuel n data =
        (benchSteps fuel info.bitsPerSample n ⟨reader, 0, .empty, 0⟩ >>= bytesPerIteration) := by
      unfold benchTestsample
      rw [hnew]
      show (assert (reader.streaminfo.bitsPerSample < 8 * 16) >>= _) = _
      rw [hinfo', assert, if_pos (decide_eq_true (by omega))]
      rfl
    rw [hstart]
    simp only [testsampleOutcome]
    have hl := h4.length_eq
    have hlens : (lensOf blocks).length = blocks.length := List.length_map _
    -- the calls up to the end of the stream and the one after that
    have hcycle : ∀ bytes iterations m, bytes < 2 ^ 32 → iterations + blocks.length < 2 ^ 64 →
        benchSteps fuel info.bitsPerSample (blocks.length + 1 + m) ⟨reader, bytes, .empty, iterations⟩ =
          if 2 ^ 32 ≤ bytes + (lensOf blocks).sum * (info.bitsPerSample / 8) then .error (.panic .overflow)
          else match (generalizing := false) last with
            | .finished => benchSteps fuel info.bitsPerSample m ⟨reader,
                bytes + (lensOf blocks).sum * (info.bitsPerSample / 8), .empty, iterations + blocks.length⟩
            | .failed _ => .error (.panic .explicit)
            | .overflowed => .error (.panic .overflow) := by
      intro bytes iterations m hb hi
      rw [Nat.add_assoc, benchSteps_add, hinp, ← hl,
        benchSteps_blocks (fuel := fuel) h3 h4 info.bitsPerSample reader bytes iterations hb (by omega)]
      split
      · rfl
      · show benchSteps fuel _ (1 + m) _ = _
        rw [Nat.add_comm, benchSteps, benchStep_end _ hnew hr' h5, ← hinp]
        cases last <;> rfl
    by_cases hk : n ≤ blocks.length
    · have := benchSteps_take (fuel := fuel) h3 h4 info.bitsPerSample reader (n := n) (bytes := 0) (iterations := 0)
        (by omega) (by omega) hk
      rw [← hinp] at this
      rw [this]
      have hdec : decodedIn (lensOf blocks) n = (lensOf blocks).take n := decodedIn_take (by omega)
      have hnil : (lensOf blocks).take n = [] ↔ n = 0 := by
        rw [← List.length_eq_zero_iff, List.length_take]
        omega
      have hlen' : ((lensOf blocks).take n).length = n := by rw [List.length_take]; omega
      rw [decide_eq_false (by omega)]
      cases last <;> simp only [hdec, hnil, hlen', Nat.zero_add]
    · cases last with
      | failed e =>
        obtain ⟨m, rfl⟩ : ∃ m, n = blocks.length + 1 + m := ⟨n - (blocks.length + 1), by omega⟩
        rw [hcycle 0 0 m (by omega) (by omega), List.take_of_length_le (by omega), decide_eq_true (by omega), Nat.zero_add]
        split <;> rfl
      | overflowed =>
        obtain ⟨m, rfl⟩ : ∃ m, n = blocks.length + 1 + m := ⟨n - (blocks.length + 1), by omega⟩
        rw [hcycle 0 0 m (by omega) (by omega), List.take_of_length_le (by omega), decide_eq_true (by omega), Nat.zero_add]
        split <;> rfl
      | finished =>
        have key : ∀ n bytes iterations, bytes < 2 ^ 32 → iterations + n < 2 ^ 64 →
            (benchSteps fuel info.bitsPerSample n ⟨reader, bytes, .empty, iterations⟩ >>= bytesPerIteration) =
              if 2 ^ 32 ≤ bytes + (decodedIn (lensOf blocks) n).sum * (info.bitsPerSample / 8) then
                .error (.panic .overflow)
              else if iterations + (decodedIn (lensOf blocks) n).length = 0 then .error (.panic .divZero)
              else .ok ((bytes + (decodedIn (lensOf blocks) n).sum * (info.bitsPerSample / 8)) /
                (iterations + (decodedIn (lensOf blocks) n).length)) := by
          intro n
          induction n using Nat.strongRecOn with
          | ind n ih =>
          intro bytes iterations hb hi
          by_cases hk : n ≤ blocks.length
          · have := benchSteps_take (fuel := fuel) h3 h4 info.bitsPerSample reader (n := n) hb hi hk
            rw [← hinp] at this
            rw [this, decodedIn_take (by omega), List.length_take, hlens, Nat.min_eq_left hk]
          · obtain ⟨m, rfl⟩ : ∃ m, n = blocks.length + 1 + m := ⟨n - (blocks.length + 1), by omega⟩
            rw [hcycle bytes iterations m hb (by omega)]
            have e := decodedIn_cycle (lensOf blocks) m
            rw [hlens] at e
            rw [e, List.sum_append, Nat.add_mul, List.length_append, hlens, ← Nat.add_assoc, ← Nat.add_assoc]
            split
            · rw [if_pos (by omega)]
              rfl
            · exact ih m (by omega) _ _ (by omega) (by omega)
        rw [key n 0 0 (by omega) (by omega)]
        simp only [Nat.zero_add, List.length_eq_zero_iff]

/-! ## Without overflow checks, as with `cargo bench` -/

/-- What comes of a benchmark with `n` calls in a build without overflow checks. -/
def testsampleRelease (n : Nat) : SessionResult → Res Nat
  | .failed _ => .error (.panic .explicit)
  | .opened info _ blocks last =>
    let decoded := match last with
      | .finished => decodedIn (lensOf blocks) n
      | _ => (lensOf blocks).take n
    match last, decide (blocks.length < n) with
    | .failed _, true => .error (.panic .explicit)
    | _, _ =>
      if decoded = [] then .error (.panic .divZero)
      else .ok (decoded.sum * (info.bitsPerSample / 8) % 2 ^ 32 / decoded.length)

theorem release_read {buffer : VecI32} {r : BufferedReader} (h : NoPanic (readNextOrEof buffer r).1) :
    @readNextOrEof _ (@BufferedReader.instReadBytesOfBuild uncheckedBuild) _ uncheckedBuild buffer r =
      readNextOrEof buffer r :=
  Ref.eq_of (same_readNextOrEof buffer uncheckedBuild _ _ (BufferedReader.refRd uncheckedBuild)) h

theorem release_new (data : List U8) :
    @FlacReader.new _ uncheckedBuild fuel (memory data) = FlacReader.new fuel (memory data) :=
  C57_open (memory_delivers data)

theorem addU_unchecked (w a b : Nat) : @addU uncheckedBuild w a b = .ok ((a + b) % 2 ^ w) := by
  unfold addU
  split
  · rw [Nat.mod_eq_of_lt (by assumption)]
  · rfl

theorem mulU_unchecked (w a b : Nat) : @mulU uncheckedBuild w a b = .ok (a * b % 2 ^ w) := by
  unfold mulU
  split
  · rw [Nat.mod_eq_of_lt (by assumption)]
  · rfl

theorem releaseSteps_succ (bps n : Nat) (st : BenchState) : @benchSteps _ uncheckedBuild fuel bps (n + 1) st =
    (@benchStep _ uncheckedBuild fuel bps st >>= @benchSteps _ uncheckedBuild fuel bps n) :=
  rfl

theorem releaseSteps_add (bps : Nat) : ∀ (m n : Nat) (st : BenchState),
    @benchSteps _ uncheckedBuild fuel bps (m + n) st =
      (@benchSteps _ uncheckedBuild fuel bps m st >>= @benchSteps _ uncheckedBuild fuel bps n)
  | 0, n, st => by rw [Nat.zero_add]; rfl
  | m + 1, n, st => by
    rw [Nat.add_right_comm, releaseSteps_succ, releaseSteps_succ]
    cases @benchStep _ uncheckedBuild fuel bps st with
    | error f => rfl
    | ok st' => exact releaseSteps_add bps m n st'

theorem releaseSteps_blocks {r r' : BufferedReader} {buffer buffer' : VecI32} {bs : List Block}
    {blocks : List (Nat × List (List Int))} (h : ReadsBlocks r buffer bs r' buffer')
    (hb : List.Forall₂ (fun (b : Block) (x : Nat × List (List Int)) => b.Holds x.1 x.2) bs blocks)
    (bps : Nat) (reader : FlacReader BufferedReader) :
    ∀ total iterations, iterations + bs.length < 2 ^ 64 →
      @benchSteps _ uncheckedBuild fuel bps bs.length
          ⟨{ reader with input := .full r }, total % 2 ^ 32, buffer, iterations⟩ =
        .ok ⟨{ reader with input := .full r' }, (total + (lensOf blocks).sum * (bps / 8)) % 2 ^ 32, buffer',
          iterations + bs.length⟩ := by
  induction h generalizing blocks with
  | nil =>
    intro total iterations h2
    cases hb
    simp [benchSteps, lensOf]
  | @cons s s₁ s' buffer buffer' b bs h next ih =>
    intro total iterations h2
    obtain ⟨x, blocks, hx, hbs, rfl⟩ : ∃ x bl, b.Holds x.1 x.2 ∧ List.Forall₂ _ bs bl ∧ blocks = x :: bl := by
      cases hb with
      | cons h1 h2 => exact ⟨_, _, h1, h2, rfl⟩
    rw [lensOf_cons h hx, List.sum_cons, Nat.add_mul]
    generalize hw : b.duration * x.2.length * (bps / 8) = w
    rw [List.length_cons] at h2 ⊢
    rw [releaseSteps_succ]
    have hlen := (C57_block h).1
    have hread := release_read (buffer := buffer) (r := s) (by rw [h]; exact noPanic_ok _)
    have hstep : @benchStep _ uncheckedBuild fuel bps
          ⟨{ reader with input := .full s }, total % 2 ^ 32, buffer, iterations⟩ =
        .ok ⟨{ reader with input := .full s₁ }, (total + w) % 2 ^ 32, b.intoBuffer, iterations + 1⟩ := by
      unfold benchStep
      show (match @readNextOrEof _ (@BufferedReader.instReadBytesOfBuild uncheckedBuild) _ uncheckedBuild buffer s with
        | (.ok (some b), inp') => @countBlock uncheckedBuild bps
            ⟨{ reader with input := .full s }, total % 2 ^ 32, buffer, iterations⟩ b inp'
        | (.ok none, inp') => _
        | (.error (.err _), _) => _
        | (.error f, _) => _) = _
      rw [hread, h]
      show (do
        let len ← @Block.len uncheckedBuild b
        let size ← @mulU uncheckedBuild 32 len (bps / 8)
        let bytes ← @addU uncheckedBuild 32 (total % 2 ^ 32) size
        let iterations ← @addU uncheckedBuild 64 iterations 1
        pure ⟨{ reader with input := .full s₁ }, bytes, b.intoBuffer, iterations⟩ : Res BenchState) = _
      rw [hlen, hx.len]
      show (@mulU uncheckedBuild 32 (b.duration * x.2.length) (bps / 8) >>= _) = _
      rw [mulU_unchecked, hw]
      show (@addU uncheckedBuild 32 (total % 2 ^ 32) (w % 2 ^ 32) >>= _) = _
      rw [addU_unchecked, ← Nat.add_mod]
      show (@addU uncheckedBuild 64 iterations 1 >>= _) = _
      rw [addU_unchecked, Nat.mod_eq_of_lt (by omega)]
      rfl
    rw [hstep]
    refine (ih hbs (total + w) (iterations + 1) (by omega)).trans ?_
    rw [Nat.add_assoc total, Nat.add_assoc iterations, Nat.add_comm 1]

theorem releaseSteps_take {r r' : BufferedReader} {buffer buffer' : VecI32} {bs : List Block}
    {blocks : List (Nat × List (List Int))} (h : ReadsBlocks r buffer bs r' buffer')
    (hb : List.Forall₂ (fun (b : Block) (x : Nat × List (List Int)) => b.Holds x.1 x.2) bs blocks)
    (bps : Nat) (reader : FlacReader BufferedReader) (total : Nat) {n iterations : Nat}
    (h2 : iterations + n < 2 ^ 64) (hn : n ≤ blocks.length) :
    (@benchSteps _ uncheckedBuild fuel bps n ⟨{ reader with input := .full r }, total % 2 ^ 32, buffer, iterations⟩ >>=
        bytesPerIteration) =
      if iterations + n = 0 then .error (.panic .divZero)
      else .ok ((total + ((lensOf blocks).take n).sum * (bps / 8)) % 2 ^ 32 / (iterations + n)) := by
  have hl := hb.length_eq
  obtain ⟨r'', buffer'', h'⟩ := readsBlocks_take h n
  have := releaseSteps_blocks (fuel := fuel) h' (List.forall₂_take n hb) bps reader total iterations
    (by rw [List.length_take]; omega)
  rw [List.length_take, hl, Nat.min_eq_left hn, show lensOf (blocks.take n) = (lensOf blocks).take n from List.map_take]
    at this
  rw [this]
  rfl

theorem releaseStep_end {r : BufferedReader} {buffer : VecI32} {last : SessionEnd} (bps : Nat)
    {reader : FlacReader BufferedReader} (hnew : FlacReader.new fuel (memory data) = .ok reader)
    (hr : r.Good ∧ r.inner.outcome = (memory data).outcome) (he : (readNextOrEof buffer r).1 = endOf last)
    (hlast : last ≠ .overflowed) (bytes iterations : Nat) :
    @benchStep _ uncheckedBuild fuel bps ⟨{ reader with input := .full r }, bytes, buffer, iterations⟩ =
      match (generalizing := false) last with
      | .finished => .ok ⟨reader, bytes, .empty, iterations⟩
      | _ => .error (.panic .explicit) := by
  have hinv := (frame_invariant (buffered_neverPanics _).toNeverPanics buffer r hr).2
  have hread := release_read (buffer := buffer) (r := r) (by
    rw [he]
    cases last with
    | finished => exact noPanic_ok _
    | failed e => exact noPanic_of_returns (.inr ⟨e, rfl⟩)
    | overflowed => exact absurd rfl hlast)
  unfold benchStep
  show (match @readNextOrEof _ (@BufferedReader.instReadBytesOfBuild uncheckedBuild) _ uncheckedBuild buffer r with
    | (.ok (some b), inp') =>
      @countBlock uncheckedBuild bps ⟨{ reader with input := .full r }, bytes, buffer, iterations⟩ b inp'
    | (.ok none, inp') => (@refreshReader _ uncheckedBuild fuel { reader with input := .full inp' } >>= fun reader =>
        pure ⟨reader, bytes, .empty, iterations⟩)
    | (.error (.err _), _) => panicRes .explicit
    | (.error f, _) => .error f) = _
  rw [hread]
  generalize readNextOrEof buffer r = x at he hinv
  obtain ⟨x, r'⟩ := x
  obtain rfl : x = endOf last := he
  cases last with
  | finished =>
    show (@refreshReader _ uncheckedBuild fuel { reader with input := .full r' } >>= _) = _
    have hs : rewound (FlacReader.intoInner { reader with input := .full r' }) = memory data := by
      show (⟨r'.inner.outcome, 0⟩ : Src) = memory data
      rw [show r'.inner.outcome = (memory data).outcome from hinv]
      rfl
    unfold refreshReader
    rw [hs, release_new, hnew]
    rfl
  | failed e => rfl
  | overflowed => exact absurd rfl hlast

/-- **C90.** Without overflow checks, the benchmarks do the same, except that the total number of bytes is counted modulo
`2 ^ 32`, so that the result is wrong if more is decoded. (Not for the streams on which a build with overflow checks
panics while decoding, for which see C70 and C86.) -/
theorem C90_release {result : SessionResult} (h : Session .default none data result) (hf : data.length < fuel)
    (ho : ∀ info vc blocks, result ≠ .opened info vc blocks .overflowed) {n : Nat} (hn : n < 2 ^ 64) :
    @benchTestsample _ uncheckedBuild fuel n data = testsampleRelease n result := by
  have hd := memory_delivers data
  have hsession := h
  cases h with
  | refused used rest e h =>
    have h1 : FlacReader.newExt fuel (memory (used ++ rest)) .default = .error (.err e) :=
      C84_session (.refused used rest e h) hd (by omega)
    unfold benchTestsample
    rw [release_new, show FlacReader.new fuel (memory (used ++ rest)) = .error (.err e) from h1]
    rfl
  | cut _ hm he =>
    have h1 : FlacReader.newExt fuel (memory data) .default = _ :=
      C84_session (.cut data hm he) hd (by omega)
    unfold benchTestsample
    rw [release_new, show FlacReader.new fuel (memory data) = _ from h1]
    rfl
  | opened first more info vc hm rest blocks last h =>
    obtain ⟨reader, r, r', bs, buffer', hnew, hinp, hinfo', hbps, hr', h3, h4, h5⟩ := opened_of hsession hf
    clear hsession
    have hlast : last ≠ .overflowed := by
      rintro rfl
      exact ho _ _ _ rfl
    generalize streamMarker ++ metadataBytes (first :: more) ++ rest = data at *
    have hstart : @benchTestsample _ uncheckedBuild fuel n data =
        (@benchSteps _ uncheckedBuild fuel info.bitsPerSample n ⟨reader, 0, .empty, 0⟩ >>= bytesPerIteration) := by
      unfold benchTestsample
      rw [release_new, hnew]
      show (assert (reader.streaminfo.bitsPerSample < 8 * 16) >>= _) = _
      rw [hinfo', assert, if_pos (decide_eq_true hbps)]
      rfl
    rw [hstart]
    simp only [testsampleRelease]
    have hl := h4.length_eq
    have hlens : (lensOf blocks).length = blocks.length := List.length_map _
    have hcycle : ∀ total iterations m, iterations + blocks.length < 2 ^ 64 →
        @benchSteps _ uncheckedBuild fuel info.bitsPerSample (blocks.length + 1 + m)
            ⟨reader, total % 2 ^ 32, .empty, iterations⟩ =
          match (generalizing := false) last with
            | .finished => @benchSteps _ uncheckedBuild fuel info.bitsPerSample m ⟨reader,
                (total + (lensOf blocks).sum * (info.bitsPerSample / 8)) % 2 ^ 32, .empty, iterations + blocks.length⟩
            | _ => .error (.panic .explicit) := by
      intro total iterations m hi
      rw [Nat.add_assoc, releaseSteps_add, hinp, ← hl,
        releaseSteps_blocks (fuel := fuel) h3 h4 info.bitsPerSample reader total iterations (by omega)]
      show @benchSteps _ uncheckedBuild fuel _ (1 + m) _ = _
      rw [Nat.add_comm, releaseSteps_succ, releaseStep_end _ hnew hr' h5 hlast, ← hinp]
      cases last <;> rfl
    by_cases hk : n ≤ blocks.length
    · have := releaseSteps_take (fuel := fuel) h3 h4 info.bitsPerSample reader 0 (n := n) (iterations := 0)
        (by omega) hk
      rw [← hinp, Nat.zero_mod] at this
      rw [this]
      have hdec : decodedIn (lensOf blocks) n = (lensOf blocks).take n := decodedIn_take (by omega)
      have hnil : (lensOf blocks).take n = [] ↔ n = 0 := by
        rw [← List.length_eq_zero_iff, List.length_take]
        omega
      have hlen' : ((lensOf blocks).take n).length = n := by rw [List.length_take]; omega
      rw [decide_eq_false (by omega)]
      cases last <;> simp only [hdec, hnil, hlen', Nat.zero_add]
    · cases last with
      | overflowed => exact absurd rfl hlast
      | failed e =>
        obtain ⟨m, rfl⟩ : ∃ m, n = blocks.length + 1 + m := ⟨n - (blocks.length + 1), by omega⟩
        have := hcycle 0 0 m (by omega)
        rw [Nat.zero_mod] at this
        rw [this, decide_eq_true (by omega)]
        rfl
      | finished =>
        have key : ∀ n total iterations, iterations + n < 2 ^ 64 →
            (@benchSteps _ uncheckedBuild fuel info.bitsPerSample n ⟨reader, total % 2 ^ 32, .empty, iterations⟩ >>=
                bytesPerIteration) =
              if iterations + (decodedIn (lensOf blocks) n).length = 0 then .error (.panic .divZero)
              else .ok ((total + (decodedIn (lensOf blocks) n).sum * (info.bitsPerSample / 8)) % 2 ^ 32 /
                (iterations + (decodedIn (lensOf blocks) n).length)) := by
          intro n
          induction n using Nat.strongRecOn with
          | ind n ih =>
          intro total iterations hi
          by_cases hk : n ≤ blocks.length
          · have := releaseSteps_take (fuel := fuel) h3 h4 info.bitsPerSample reader total (n := n) hi hk
            rw [← hinp] at this
            rw [this, decodedIn_take (by omega), List.length_take, hlens, Nat.min_eq_left hk]
          · obtain ⟨m, rfl⟩ : ∃ m, n = blocks.length + 1 + m := ⟨n - (blocks.length + 1), by omega⟩
            rw [hcycle total iterations m (by omega)]
            have e := decodedIn_cycle (lensOf blocks) m
            rw [hlens] at e
            rw [e, List.sum_append, Nat.add_mul, List.length_append, hlens, ← Nat.add_assoc, ← Nat.add_assoc]
            exact ih m (by omega) _ _ (by omega)
        have := key n 0 0 (by omega)
        rw [Nat.zero_mod] at this
        rw [this]
        simp only [Nat.zero_add, List.length_eq_zero_iff]

/-! ## Examples -/

/-- An input with two frames: the third call starts again. -/
example : decodedIn [8, 8] 5 = [8, 8, 8, 8] ∧ benchTestsample 999 5 benchData = .ok 16 := by decide +kernel

/-- This is an input to which `C90_bench` applies. -/
example : ∃ result, Session .default none benchData result ∧ testsampleOutcome 5 result = .ok 16 :=
  (C84_sessionTotal _ _ _).imp fun _ h => ⟨h, (C90_bench h (fuel := 999) (by decide +kernel) (by decide)).symm.trans
    (by decide +kernel)⟩

/-- It is an input to which `C90_release` applies, too. -/
example : ∃ result, Session .default none benchData result ∧
    (∀ info vc blocks, result ≠ .opened info vc blocks .overflowed) ∧
    @benchTestsample _ uncheckedBuild 999 5 benchData = testsampleRelease 5 result := by
  obtain ⟨result, h⟩ := C84_sessionTotal .default none benchData
  have ho : ∀ info vc blocks, result ≠ .opened info vc blocks .overflowed := by
    rintro info vc blocks rfl
    obtain ⟨bytes, h1, -⟩ := C89_decode (fuel := 999) h (by decide +kernel) (by decide +kernel)
    have h2 : (benchMain 999 benchData).isOk = true := by decide +kernel
    rw [h1] at h2
    cases hs : info.samples <;> simp only [benchOutcome, hs] at h2 <;> cases h2
  exact ⟨result, h, ho, C90_release h (by decide +kernel) ho (by decide)⟩

/-- Without frames, no block is ever decoded. -/
example : benchTestsample 9 3 (streamMarker ++ metadataBytes [infoBlock true]) = .error (.panic .divZero) := by
  decide +kernel

/-- An error after the first of two blocks: one call succeeds, two do not. -/
example : benchTestsample 999 1 benchData.dropLast = .ok 16 ∧
    benchTestsample 999 2 benchData.dropLast = .error (.panic .explicit) := by
  decide +kernel

end Claxon.Props
