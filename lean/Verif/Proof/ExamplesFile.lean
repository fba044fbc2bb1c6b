import Verif.Proof.Examples
import Verif.Props.Lib
import Verif.Props.Open

/-! # The example programs that decode files -/

namespace Claxon

open Spec ReadBytes

namespace Examples

variable {r : BufferedReader} {fault : Option Nat}

/-- The samples of a list of blocks. -/
def samplesOf (blocks : List Block) (xs : List I32) : Prop := blocks.flatMap blockSamples = xs.map .ok

/-- A file with more samples. -/
def _root_.Claxon.Examples.Wav.append {α : Type} (w : Wav α) (xs : List α) : Wav α :=
  { w with samples := w.samples ++ xs }

theorem Wav.append_nil {α : Type} (w : Option (Wav α)) : w.map (·.append []) = w := by
  cases w <;> simp [Wav.append]

theorem Wav.append_append {α : Type} (w : Option (Wav α)) (xs ys : List α) :
    (w.map (·.append xs)).map (·.append ys) = w.map (·.append (xs ++ ys)) := by
  cases w <;> simp [Wav.append]

theorem samplesOf_cons {b : Block} {blocks : List Block} {xs ys : List I32} (h : blockSamples b = xs.map .ok)
    (h' : samplesOf blocks ys) : samplesOf (b :: blocks) (xs ++ ys) := by
  unfold samplesOf at *
  rw [List.flatMap_cons, h, h', List.map_append]

/-- The ways in which the loop in decode.rs ends. -/
inductive LoopEnds {σ : Type} [ReadBytes σ] (buffer : VecI32) (s : σ) : Except Fail Unit → Prop where
  | done {s'} (h : readNextOrEof buffer s = (.ok none, s')) : LoopEnds buffer s (.ok ())
  | error {e s'} (h : readNextOrEof buffer s = (.error (.err e), s')) :
      LoopEnds buffer s (.error (.panic .explicit))
  | notStereo {b s'} (h : readNextOrEof buffer s = (.ok (some b), s')) (hc : b.channels ≠ 2) :
      LoopEnds buffer s (.error (.panic .explicit))
  | fail {f s'} (h : readNextOrEof buffer s = (.error f, s')) (hf : ∀ e, f ≠ .err e) : LoopEnds buffer s (.error f)

/-- decode.rs writes the samples of the blocks up to where it stops. -/
theorem decodeLoop_cases {σ : Type} [ReadBytes σ] : ∀ (fuel : Nat) (buffer : VecI32) (s : σ)
    (w : Option (Wav (BitVec 16))), ∃ blocks xs s' buffer', ReadsBlocks s buffer blocks s' buffer' ∧
      (∀ b ∈ blocks, b.channels = 2) ∧ samplesOf blocks xs ∧
      (decodeLoop fuel buffer s w).2 = w.map (·.append (xs.map (BitVec.setWidth 16))) ∧
      ((blocks.length = fuel ∧ (decodeLoop fuel buffer s w).1 = .error .diverged) ∨
        (blocks.length < fuel ∧ LoopEnds buffer' s' (decodeLoop fuel buffer s w).1))
  | 0, buffer, s, w => ⟨[], [], s, buffer, .nil, nofun, rfl, (Wav.append_nil w).symm, .inl ⟨rfl, rfl⟩⟩
  | fuel + 1, buffer, s, w => by
    have stop : ∀ x, decodeLoop (fuel + 1) buffer s w = (x, w) → LoopEnds buffer s x →
        ∃ blocks xs s' buffer', ReadsBlocks s buffer blocks s' buffer' ∧
      (∀ b ∈ blocks, b.channels = 2) ∧ samplesOf blocks xs ∧
      (decodeLoop (fuel + 1) buffer s w).2 = w.map (·.append (xs.map (BitVec.setWidth 16))) ∧
      ((blocks.length = fuel + 1 ∧ (decodeLoop (fuel + 1) buffer s w).1 = .error .diverged) ∨
        (blocks.length < fuel + 1 ∧ LoopEnds buffer' s' (decodeLoop (fuel + 1) buffer s w).1)) := by
      intro x hx he
      rw [hx]
      exact ⟨[], [], s, buffer, .nil, nofun, rfl, (Wav.append_nil w).symm, .inr ⟨by simp, he⟩⟩
    rcases hx : readNextOrEof buffer s with ⟨f | _ | b, s'⟩
    · cases f with
      | err e => exact stop _ (by rw [decodeLoop, hx]; rfl) (.error hx)
      | panic p => exact stop _ (by rw [decodeLoop, hx]; rfl) (.fail hx nofun)
      | ub => exact stop _ (by rw [decodeLoop, hx]; rfl) (.fail hx nofun)
      | diverged => exact stop _ (by rw [decodeLoop, hx]; rfl) (.fail hx nofun)
    · exact stop _ (by rw [decodeLoop, hx]; rfl) (.done hx)
    · by_cases h2 : b.channels = 2
      · obtain ⟨xs, h3, h4⟩ := decodeBlock_of hx h2
        obtain ⟨blocks, ys, s'', buffer', h5, h6, h7, h8, h9⟩ := decodeLoop_cases fuel b.intoBuffer s'
          (w.map (·.append (xs.map (BitVec.setWidth 16))))
        have e : decodeLoop (fuel + 1) buffer s w =
            decodeLoop fuel b.intoBuffer s' (w.map (·.append (xs.map (BitVec.setWidth 16)))) := by
          rw [decodeLoop, hx]
          simp only
          rw [Dec.bind_liftM_of h3]
          rfl
        rw [e, h8, Wav.append_append, ← List.map_append]
        refine ⟨b :: blocks, xs ++ ys, s'', buffer', .cons hx h5, ?_, samplesOf_cons h4 h7, rfl, ?_⟩
        · intro c hc
          rcases List.mem_cons.1 hc with rfl | hc
          · exact h2
          · exact h6 c hc
        · rcases h9 with ⟨h9, h10⟩ | ⟨h9, h10⟩
          · exact .inl ⟨by simp [h9], h10⟩
          · exact .inr ⟨by simp; omega, h10⟩
      · refine stop _ ?_ (.notStereo hx h2)
        have hs := post_block buffer _ _ _ hx b rfl
        rw [decodeLoop, hx]
        simp only
        rw [decodeBlock_panics h2 hs.blockSize.2]
        rfl

theorem samplesOf_unique {blocks : List Block} {xs ys : List I32} (h : samplesOf blocks xs)
    (h' : samplesOf blocks ys) : xs = ys := by
  unfold samplesOf at *
  rw [h] at h'
  exact List.map_injective_iff.2 (fun a b h => by cases h; rfl) h'

/-- decode.rs writes the samples of all blocks, if they have two channels. -/
theorem decodeLoop_of {σ : Type} [ReadBytes σ] {s s' s'' : σ} {buffer buffer' : VecI32} {blocks : List Block}
    (h : ReadsBlocks s buffer blocks s' buffer') (h2 : ∀ b ∈ blocks, b.channels = 2)
    (he : readNextOrEof buffer' s' = (.ok none, s'')) {fuel : Nat} (hf : blocks.length < fuel) :
    ∃ xs : List I32, samplesOf blocks xs ∧ ∀ w,
      decodeLoop fuel buffer s w = (.ok (), w.map (·.append (xs.map (BitVec.setWidth 16)))) := by
  induction h generalizing fuel with
  | nil =>
    obtain ⟨fuel, rfl⟩ : ∃ k, fuel = k + 1 := ⟨fuel - 1, by simp at hf; omega⟩
    refine ⟨[], rfl, fun w => ?_⟩
    rw [decodeLoop, he, List.map_nil, Wav.append_nil]
    rfl
  | cons hx next ih =>
    rename_i s s₁ s' buffer buffer' b blocks
    obtain ⟨fuel, rfl⟩ : ∃ k, fuel = k + 1 := ⟨fuel - 1, by simp at hf; omega⟩
    obtain ⟨xs, h3, h4⟩ := decodeBlock_of hx (h2 b (by simp))
    obtain ⟨ys, h5, h6⟩ := ih (fun b hb => h2 b (by simp [hb])) he (fuel := fuel) (by simp at hf; omega)
    refine ⟨xs ++ ys, samplesOf_cons h4 h5, fun w => ?_⟩
    rw [decodeLoop, hx]
    simp only
    rw [Dec.bind_liftM_of h3]
    show decodeLoop fuel b.intoBuffer s₁ (w.map (·.append (xs.map (BitVec.setWidth 16)))) = _
    rw [h6, Wav.append_append, ← List.map_append]

/-- The samples of a frame. -/
theorem encoded_samples {e : Props.Encoded} {b : Block} {buffer : VecI32} (hs : b.Shape buffer)
    (h : b.Holds e.frame.header.time e.channels) : blockSamples b =
      ((interleave e.frame.header.blockSize.size e.channels).map (BitVec.ofInt 32)).map .ok := by
  have hd : b.duration = e.frame.header.blockSize.size := by
    have hc := e.encodes.count
    have := count_bounds e.frame.header.channels
    obtain ⟨c, cs, hcs⟩ : ∃ c cs, e.channels = c :: cs := by
      cases h : e.channels with
      | nil => rw [h] at hc; simp at hc; omega
      | cons c cs => exact ⟨c, cs, rfl⟩
    rw [← h.duration c (by simp [hcs]), e.encodes.size c (by simp [hcs])]
  rw [blockSamples_holds hs h, hd, List.map_map]
  rfl

/-- The blocks of a sequence of frames. -/
theorem encoded_counts (es : List Props.Encoded) (buffer : VecI32) {rest : List U8}
    (hr : r.Remaining (Props.Encoded.stream es ++ rest) fault) :
    ∃ blocks r' buffer', ReadsBlocks r buffer blocks r' buffer' ∧ r'.Remaining rest fault ∧
      blocks.map Block.channels = es.map (fun e => e.channels.length) ∧
      samplesOf blocks ((Props.Encoded.samples es).map (BitVec.ofInt 32)) := by
  induction es generalizing r buffer with
  | nil => exact ⟨[], r, buffer, .nil, hr, rfl, rfl⟩
  | cons e es ih =>
    have hr' : r.Remaining (e.frame.bytes e.bps ++ (Props.Encoded.stream es ++ rest)) fault := by
      rw [← List.append_assoc]; exact hr
    obtain ⟨b, r₁, h1, h2, h3⟩ := Props.C23_lossless e.encodes buffer hr'
    obtain ⟨blocks, r', buffer', h4, h5, h6, h7⟩ := ih b.intoBuffer h2
    refine ⟨b :: blocks, r', buffer', .cons h1 h4, h5, by simp [h6, h3.count], ?_⟩
    have hs := post_block buffer _ _ _ h1 b rfl
    rw [show Props.Encoded.samples (e :: es) =
      interleave e.frame.header.blockSize.size e.channels ++ Props.Encoded.samples es from rfl, List.map_append]
    exact samplesOf_cons (encoded_samples hs h3) h7

theorem FitsIn.toInt {e : Props.Encoded} {c : List Int} (hc : c ∈ e.channels) {v : Int} (hv : v ∈ c) :
    (BitVec.ofInt 32 v).toInt = v := by
  have h := e.encodes.range c hc v hv
  have h32 : e.bps ≤ 32 := by
    have := e.encodes.legal.sampleSize
    generalize e.frame.header.sampleSize = x at this
    cases x <;> simp [SampleSizeField.bits] at this <;> omega
  exact toInt_ofInt_fits (FitsIn.mono h h32)

end Examples

end Claxon
