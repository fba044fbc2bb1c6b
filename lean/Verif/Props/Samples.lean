import Verif.Proof.SamplesApi
import Verif.Props.Frame

/-! # C33, C34, C35: the sample iterator -/

namespace Claxon.Props

open Claxon Spec ReadBytes

variable {r : BufferedReader} {bytes : List U8} {fault : Option Nat}

/-! ## C33 -/

/-- The call yields this sample. -/
def yields (v : Int) : Except Fail (Option (Except Error I32)) := .ok (some (.ok (BitVec.ofInt 32 v)))

/-- The samples of a sequence of frames. -/
def Encoded.samples (es : List Encoded) : List Int :=
  es.flatMap fun e => interleave e.frame.header.blockSize.size e.channels

theorem encoded_blocks (es : List Encoded) (buffer : VecI32) {rest : List U8}
    (hr : r.Remaining (Encoded.stream es ++ rest) fault) :
    ∃ blocks r' buffer', ReadsBlocks r buffer blocks r' buffer' ∧ r'.Remaining rest fault ∧
      blocks.flatMap blockSamples = (Encoded.samples es).map fun v => .ok (BitVec.ofInt 32 v) := by
  induction es generalizing r buffer with
  | nil => exact ⟨[], r, buffer, .nil, hr, rfl⟩
  | cons e es ih =>
    have hr' : r.Remaining (e.frame.bytes e.bps ++ (Encoded.stream es ++ rest)) fault := by
      rw [← List.append_assoc]; exact hr
    obtain ⟨b, r₁, h1, h2, h3⟩ := C23_lossless e.encodes buffer hr'
    obtain ⟨blocks, r', buffer', h4, h5, h6⟩ := ih b.intoBuffer h2
    refine ⟨b :: blocks, r', buffer', .cons h1 h4, h5, ?_⟩
    have hs := post_block buffer _ _ _ h1 b rfl
    have hd : b.duration = e.frame.header.blockSize.size := by
      have hc := e.encodes.count
      have := count_bounds e.frame.header.channels
      obtain ⟨c, cs, hcs⟩ : ∃ c cs, e.channels = c :: cs := by
        cases h : e.channels with
        | nil => rw [h] at hc; simp at hc; omega
        | cons c cs => exact ⟨c, cs, rfl⟩
      rw [← h3.duration c (by simp [hcs]), e.encodes.size c (by simp [hcs])]
    rw [List.flatMap_cons, h6, blockSamples_holds hs h3, hd, ← List.map_append]
    rfl

/-- **C33.** On any sequence of frames, the sample iterator yields their samples, first by index and then by
channel, and then `None` as often as one calls. -/
theorem C33_frames (es : List Encoded) (hr : r.Remaining (Encoded.stream es) none) (more : Nat) :
    calls FlacSamples.next ((Encoded.samples es).length + more) (FlacSamples.new r) =
      (Encoded.samples es).map yields ++ List.replicate more (.ok none) := by
  obtain ⟨blocks, r', buffer', h1, h2, h3⟩ := encoded_blocks es .empty (rest := []) (by rwa [List.append_nil])
  obtain ⟨it', h4, h5⟩ := FlacSamples.calls_blocks (FlacSamples.atEnd_new r) h1
  have h6 := h5 more
  rw [h3, List.length_map, List.map_map] at h6
  rw [h6, calls_atEnd_eof h4 h2]
  rfl

/-- **C33.** On any stream, with any reader: the iterator yields the samples of the blocks that
`read_next_or_eof` returns, first by index and then by channel. -/
theorem C33_blocks {σ : Type} [ReadBytes σ] {s s' : σ} {blocks : List Block} {buffer : VecI32}
    (h : ReadsBlocks s .empty blocks s' buffer) :
    calls FlacSamples.next (blocks.flatMap blockSamples).length (FlacSamples.new s) =
      (blocks.flatMap blockSamples).map fun x => x.map fun v => some (.ok v) := by
  obtain ⟨it', -, h2⟩ := FlacSamples.calls_blocks (FlacSamples.atEnd_new s) h
  have h3 := h2 0
  rw [Nat.add_zero] at h3
  rw [h3]
  exact List.append_nil _

/-- **C33.** The next call after these blocks yields what `read_next_or_eof` returns there, if that is not a
block: `None`, or the error. -/
theorem C33_end {σ : Type} [ReadBytes σ] {s s' s'' : σ} {blocks : List Block} {buffer : VecI32}
    (h : ReadsBlocks s .empty blocks s' buffer) :
    (readNextOrEof buffer s' = (.ok none, s'') →
      calls FlacSamples.next ((blocks.flatMap blockSamples).length + 1) (FlacSamples.new s) =
        (blocks.flatMap blockSamples).map (fun x => x.map fun v => some (.ok v)) ++ [.ok none]) ∧
    ∀ e, readNextOrEof buffer s' = (.error (.err e), s'') →
      calls FlacSamples.next ((blocks.flatMap blockSamples).length + 1) (FlacSamples.new s) =
        (blocks.flatMap blockSamples).map (fun x => x.map fun v => some (.ok v)) ++
          [.ok (some (.error e))] := by
  obtain ⟨it', h1, h2⟩ := FlacSamples.calls_blocks (FlacSamples.atEnd_new s) h
  have h3 := h2 1
  constructor
  · intro h4
    rw [h3, calls, FlacSamples.next_atEnd h1]
    unfold FlacSamples.afterBlock
    rw [h4]
    rfl
  · intro e h4
    rw [h3, calls, FlacSamples.next_atEnd h1]
    unfold FlacSamples.afterBlock
    rw [h4]
    rfl

example : ∃ es : List Encoded, Encoded.samples es = [5, 3, 7, 4, 6, 8, 6, 2, 5, 3, 7, 4, 6, 8, 6, 2] ∧
    (BufferedReader.new (bytewise (Encoded.stream es))).Remaining (Encoded.stream es) none :=
  ⟨[⟨16, _, _, exampleFrame_encodes⟩, ⟨16, _, _, exampleFrame_encodes⟩], by decide, bytewise_remaining _⟩

/-! ## C34 -/

/-- **C34.** After an error, with any reader and in any state, the iterator yields `None` as often as one
calls, and does not touch the reader. -/
theorem C34_error {σ : Type} [ReadBytes σ] {it it' : FlacSamples σ} {e : Error}
    (h : FlacSamples.next it = (.ok (some (.error e)), it')) :
    FlacSamples.next it' = (.ok none, it') := by
  apply FlacSamples.next_failed
  have key : ∀ (it : FlacSamples σ) e it', FlacSamples.current it ≠ (.ok (some (.error e)), it') := by
    intro it e it' h
    unfold FlacSamples.current at h
    rw [Dec.bind_get_run] at h
    generalize it.block.sample it.channel it.sample = x at h
    cases x <;> cases h
  unfold FlacSamples.next at h
  rw [Dec.bind_get_run] at h
  by_cases hf : it.hasFailed = true
  · rw [if_pos hf] at h
    cases h
  · rw [if_neg hf] at h
    have hadd : ∀ a, (∃ c, addU 32 a 1 = .ok c) ∨ addU 32 a 1 = .error (.panic .overflow) := by
      intro a
      unfold addU
      split
      · exact .inl ⟨_, rfl⟩
      · exact .inr rfl
    rcases hadd it.channel with ⟨c, hc⟩ | hc
    · rw [Dec.bind_liftM_of hc] at h
      by_cases hge : c ≥ it.block.channels
      · rw [if_pos hge] at h
        rcases hadd it.sample with ⟨d, hd⟩ | hd
        · rw [Dec.bind_liftM_of hd, Dec.bind_set_run] at h
          by_cases hge' : d ≥ it.block.duration
          · rw [if_pos hge'] at h
            unfold FlacSamples.nextBlock at h
            rw [Dec.bind_get_run, Dec.bind_set_run, Dec.bind_def] at h
            simp only [Dec.catchErr, FlacSamples.onReader, Dec.zoom_run] at h
            generalize readNextOrEof it.block.intoBuffer it.frameReader = x at h
            rcases x with ⟨e' | _ | b, s'⟩
            · cases e' with
              | err e' =>
                simp only [Dec.bind_get_run, Dec.bind_set_run] at h
                cases h
                rfl
              | panic p => cases h
              | ub => cases h
              | diverged => cases h
            · cases h
            · simp only [Dec.bind_get_run, Dec.bind_set_run] at h
              exact absurd h (key _ _ _)
          · rw [if_neg hge'] at h
            exact absurd h (key _ _ _)
        · rw [hd] at h
          cases h
      · rw [if_neg hge, Dec.bind_set_run] at h
        exact absurd h (key _ _ _)
    · rw [hc] at h
      cases h

/-- An error, or `None`. -/
inductive IsEnd : Except Fail (Option (Except Error I32)) → Prop where
  | error (e : Error) : IsEnd (.ok (some (.error e)))
  | none : IsEnd (.ok none)

/-- **C34.** On any stream, whatever is yielded after an error or after `None` is `None`. -/
theorem C34_end (hr : r.Remaining bytes fault) {n i j : Nat} (hij : i < j) (hj : j < n)
    {x : Except Fail (Option (Except Error I32))} (hx : IsEnd x)
    (h : (calls FlacSamples.next n (FlacSamples.new r))[i]? = some x) :
    (calls FlacSamples.next n (FlacSamples.new r))[j]? = some (.ok none) := by
  have gen : ∀ (n i j : Nat) (it : FlacSamples BufferedReader), SamplesInv bytes fault it → i < j → j < n →
      (calls FlacSamples.next n it)[i]? = some x → (calls FlacSamples.next n it)[j]? = some (.ok none) := by
    intro n
    induction n with
    | zero => intro i j it _ _ hj; omega
    | succ n ih =>
      intro i j it hinv hij hj h
      have hstep := samples_step hinv
      obtain ⟨j, rfl⟩ : ∃ k, j = k + 1 := ⟨j - 1, by omega⟩
      rw [getElem?_calls_succ]
      cases i with
      | succ i =>
        rw [getElem?_calls_succ] at h
        exact ih i j _ hstep.inv (by omega) (by omega) h
      | zero =>
        have hx' : (FlacSamples.next it).1 = x := by simpa [calls] using h
        have hend : (FlacSamples.next it).2.hasFailed = true ∨
            ∃ r : BufferedReader, (FlacSamples.next it).2 = FlacSamples.new r ∧ r.Remaining [] none := by
          cases hx with
          | error e => exact .inl (hstep.err e hx')
          | none => exact hstep.none hx'
        rcases hend with hf | ⟨r', h1, h2⟩
        · rw [calls_failed hf, List.getElem?_replicate, if_pos (by omega)]
        · rw [h1, calls_eof h2, List.getElem?_replicate, if_pos (by omega)]
  exact gen n i j _ (.between hr List.suffix_rfl) hij hj h

/-- The frame of eight samples, and an error after it. -/
example : (calls FlacSamples.next 12 (FlacSamples.new
      (BufferedReader.new (bytewise (exampleFrame.bytes 16 ++ [0xff#8, 0xff#8])))))[8]? =
        some (.ok (some (.error (.formatError "frame sync code missing")))) ∧
    (calls FlacSamples.next 12 (FlacSamples.new
      (BufferedReader.new (bytewise (exampleFrame.bytes 16 ++ [0xff#8, 0xff#8])))))[11]? = some (.ok none) := by
  decide +kernel

/-! ## C35 -/

/-- **C35.** On every stream, whatever it contains, and however often one calls, also after a panic: the only panic
is the arithmetic overflow in a checked build, after `2 ^ 32 - 1` zero bits in a row. There is no undefined behaviour,
and every call comes to an end. -/
theorem C35_overflow (hr : r.Remaining bytes fault) (n : Nat) :
    ∀ x ∈ calls FlacSamples.next n (FlacSamples.new r),
      (∃ y, x = .ok y) ∨ x = .error (.panic .overflow) ∧ LongZeros (bytesToBits bytes) := by
  have gen : ∀ (n : Nat) (it : FlacSamples BufferedReader), SamplesInv bytes fault it →
      ∀ x ∈ calls FlacSamples.next n it,
        (∃ y, x = .ok y) ∨ x = .error (.panic .overflow) ∧ LongZeros (bytesToBits bytes) := by
    intro n
    induction n with
    | zero => intro it _ x hx; simp [calls] at hx
    | succ n ih =>
      intro it hinv x hx
      have hstep := samples_step hinv
      rw [calls] at hx
      rcases List.mem_cons.1 hx with rfl | hx
      · exact hstep.ok
      · exact ih _ hstep.inv x hx
  exact gen n _ (.between hr List.suffix_rfl)

/-- **C35.** Without `2 ^ 32 - 1` zero bits in a row to come, no call panics, however often one calls. -/
theorem C35_noPanic (hr : r.Remaining bytes fault) (hz : ¬ LongZeros (bytesToBits bytes)) (n : Nat) :
    ∀ x ∈ calls FlacSamples.next n (FlacSamples.new r), ∃ y, x = .ok y :=
  fun x hx => (C35_overflow hr n x hx).resolve_right fun h => hz h.2

/-- A stream with a frame followed by an invalid one: the error is yielded after the samples of the first
one, and then `None`. -/
example : ∃ r : BufferedReader, r.Remaining (exampleFrame.bytes 16 ++ [0xff#8, 0xff#8]) none ∧
    ¬ LongZeros (bytesToBits (exampleFrame.bytes 16 ++ [0xff#8, 0xff#8])) :=
  ⟨_, bytewise_remaining _, not_longZeros (by decide +kernel)⟩

end Claxon.Props
