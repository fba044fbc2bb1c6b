import Verif.Proof.ReleaseDec
import Verif.Props.Frame
import Verif.Props.Lib
import Verif.Props.Samples
import Verif.Props.Block

/-! # C26 (last sentence), C57: builds with and without overflow checks and debug assertions

`checkedBuild` is a build with overflow checks and debug assertions (by default, a debug build), and
`uncheckedBuild` one without (by default, a release build). Where no build is mentioned, it is the checked
one. -/

namespace Claxon.Props

open Claxon Spec ReadBytes

variable {r : BufferedReader} {bytes : List U8} {fault : Option Nat} {σ α : Type}

/-- Not a panic. -/
def NoPanic (x : Except Fail α) : Prop := ∀ p, x ≠ .error (.panic p)

theorem noPanic_of_returns {x : Except Fail α} (h : Returns x) : NoPanic x := by
  rintro p rfl
  rcases h with ⟨_, h⟩ | ⟨_, h⟩ <;> cases h

theorem noPanic_ok (a : α) : NoPanic (.ok a : Except Fail α) := by
  rintro p h
  cases h

theorem same_run (op : Op) : Same σ (τ := σ) op.run := by
  intro bd I I' h
  cases op <;> unfold Op.run <;> ref

theorem same_runOps (ops : List Op) (s : σ) (bd : Build) {I I' : ReadBytes σ} (h : RefRd I I')
    (hp : ∀ x ∈ @runOps _ checkedBuild σ I ops s, NoPanic x) :
    @runOps _ bd σ I' ops s = @runOps _ checkedBuild σ I ops s := by
  induction ops generalizing s with
  | nil => rfl
  | cons op ops ih =>
    have h1 : @Op.run _ bd σ I' op s = @Op.run _ checkedBuild σ I op s := by
      apply Ref.eq_of (same_run op bd _ _ h)
      apply hp
      rw [@runOps.eq_2 _ checkedBuild]
      dsimp only
      split <;> simp
    rw [@runOps.eq_2 _ bd, @runOps.eq_2 _ checkedBuild, h1]
    by_cases hio : IsIoError (@Op.run _ checkedBuild σ I op s).1 = true
    · rw [if_pos hio, if_pos hio]
    · rw [if_neg hio, if_neg hio]
      congr 1
      apply ih
      intro x hx
      apply hp
      rw [@runOps.eq_2 _ checkedBuild, if_neg hio]
      exact List.mem_cons_of_mem _ hx

theorem same_calls {m m' : Dec σ α} (h : Ref m m') (n : Nat) (s : σ)
    (hp : ∀ x ∈ calls m n s, NoPanic x) : calls m' n s = calls m n s := by
  induction n generalizing s with
  | zero => rfl
  | succ n ih =>
    have h1 : m' s = m s := h.eq_of (hp _ (by rw [calls]; exact List.mem_cons_self))
    rw [calls, calls, h1, ih]
    intro x hx
    exact hp x (by rw [calls]; exact List.mem_cons_of_mem _ hx)

theorem calls_mono {m : Dec σ α} {n k : Nat} (h : n ≤ k) {s : σ} {x : Except Fail α}
    (hx : x ∈ calls m n s) : x ∈ calls m k s := by
  induction n generalizing k s with
  | zero => simp [calls] at hx
  | succ n ih =>
    obtain ⟨k, rfl⟩ : ∃ j, k = j + 1 := ⟨k - 1, by omega⟩
    rw [calls] at hx ⊢
    rcases List.mem_cons.1 hx with rfl | hx
    · exact List.mem_cons_self
    · exact List.mem_cons_of_mem _ (ih (by omega) hx)

/-! ## C26 -/

/-- **C26.** Without a long run of zeros to come, a sequence of frame reads gives the same results in every
build. -/
theorem C26_release (buffers : List VecI32) (hr : r.Remaining bytes fault)
    (hz : ¬ LongZeros (bytesToBits bytes)) :
    @runOps _ uncheckedBuild _ (@BufferedReader.instReadBytesOfBuild uncheckedBuild) (buffers.map .frame) r =
      runOps (buffers.map .frame) r :=
  same_runOps _ _ uncheckedBuild (BufferedReader.refRd uncheckedBuild) fun x hx =>
    noPanic_of_returns (C26_frames buffers hr hz x hx)

example : ¬ LongZeros (bytesToBits (exampleFrame.bytes 16 ++ [0xff#8, 0xff#8])) ∧
    (BufferedReader.new (bytewise (exampleFrame.bytes 16 ++ [0xff#8, 0xff#8]))).Remaining
      (exampleFrame.bytes 16 ++ [0xff#8, 0xff#8]) none :=
  ⟨not_longZeros (by decide +kernel), bytewise_remaining _⟩

/-! ## C57 -/

/-- **C57.** An operation that does not panic in a checked build has the same result in every build, and
leaves the reader in the same state. -/
theorem C57_operation (op : Op) (r : BufferedReader) (h : NoPanic (op.run r).1) :
    @Op.run _ uncheckedBuild _ (@BufferedReader.instReadBytesOfBuild uncheckedBuild) op r = op.run r :=
  (same_run op uncheckedBuild _ _ (BufferedReader.refRd uncheckedBuild)).eq_of h

/-- **C57.** The same for a sequence of operations. -/
theorem C57_operations (ops : List Op) (r : BufferedReader)
    (h : ∀ x ∈ runOps ops r, NoPanic x) :
    @runOps _ uncheckedBuild _ (@BufferedReader.instReadBytesOfBuild uncheckedBuild) ops r = runOps ops r :=
  same_runOps ops r uncheckedBuild (BufferedReader.refRd uncheckedBuild) h

/-- **C57.** The same for a cursor over bytes in memory. -/
theorem C57_cursor (ops : List Op) (c : Cursor) (h : ∀ x ∈ runOps ops c, NoPanic x) :
    @runOps _ uncheckedBuild _ (@Cursor.instReadBytesOfBuild uncheckedBuild) ops c = runOps ops c :=
  same_runOps ops c uncheckedBuild (Cursor.refRd uncheckedBuild) h

/-- **C57.** Opening a stream gives the same result in every build, for every input and all options. -/
theorem C57_open {src : Src} {fuel : Nat} {o : FlacReaderOptions}
    (hd : src.Delivers bytes fault) :
    @FlacReader.newExt _ uncheckedBuild fuel src o = FlacReader.newExt fuel src o := by
  rcases same_newExtGen fuel (BufferedReader.new src) o uncheckedBuild (BufferedReader.refRd uncheckedBuild) with ⟨p, h⟩ | h
  · have h : FlacReader.newExt fuel src o = .error (.panic p) := h
    rcases C50_fuel (fuel := fuel) (o := o) hd with h1 | ⟨h1, -⟩
    · rw [h1] at h; cases h
    · exact absurd h (noPanic_of_returns h1 p)
  · exact h.symm

/-- **C57.** The sample iterator gives the same samples, the same error and the same end in every build, unless it
panics with an arithmetic overflow in a checked build, for which there must be `2 ^ 32 - 1` zero bits in a row
(`C35_overflow`). -/
theorem C57_samples (hr : r.Remaining bytes fault) (n : Nat)
    (hp : .error (.panic .overflow) ∉ calls FlacSamples.next n (FlacSamples.new r)) :
    calls (@FlacSamples.next _ (@BufferedReader.instReadBytesOfBuild uncheckedBuild) _ uncheckedBuild _) n (FlacSamples.new r) =
      calls FlacSamples.next n (FlacSamples.new r) := by
  refine same_calls (same_samplesNext uncheckedBuild _ _ (BufferedReader.refRd uncheckedBuild)) n _ fun x hx => ?_
  rcases C35_overflow hr n x hx with ⟨y, rfl⟩ | ⟨rfl, -⟩
  · exact noPanic_ok y
  · exact absurd hx hp

/-- No short stream makes the iterator panic. -/
example (hr : r.Remaining bytes fault) (hl : bytes.length < 2 ^ 29) (n : Nat) :
    .error (.panic .overflow) ∉ calls FlacSamples.next n (FlacSamples.new r) := fun h =>
  (C35_noPanic hr (not_longZeros hl) n _ h).elim nofun

/-- **C57.** The metadata iterator gives the same items in every build. -/
theorem C57_metadata (hr : r.Remaining bytes fault) (n : Nat) :
    calls (@MetadataBlockReader.next _ (@BufferedReader.instReadBytesOfBuild uncheckedBuild) uncheckedBuild) n
        (MetadataBlockReader.new r) =
      calls MetadataBlockReader.next n (MetadataBlockReader.new r) :=
  same_calls (same_metadataNext uncheckedBuild _ _ (BufferedReader.refRd uncheckedBuild)) n _ fun x hx =>
    noPanic_of_returns (C50_iterator hr n x hx)

/-- **C57.** The length of a decoded block, and its stereo samples, are the same in every build. -/
theorem C57_block [ReadBytes σ] {buffer : VecI32} {b : Block} {s s' : σ}
    (h : readNextOrEof buffer s = (.ok (some b), s')) :
    @Block.len uncheckedBuild b = b.len ∧
    ∀ it, b.stereoSamples = .ok it → ∀ n,
      calls (@StereoSamples.next uncheckedBuild _) n it = calls StereoSamples.next n it := by
  constructor
  · rcases same_blockLen b uncheckedBuild with ⟨p, h1⟩ | h1
    · have h1 : b.len = .error (.panic p) := h1
      rw [C29_len h] at h1; cases h1
    · exact h1.symm
  · intro it hit n
    have h2 : b.channels = 2 := by
      by_contra h2
      rw [C29_notStereo h2] at hit
      cases hit
    obtain ⟨left, right, it', -, -, hit', hc⟩ := C29_stereo h h2 n
    obtain rfl : it' = it := by rw [hit'] at hit; exact Except.ok.inj hit
    have hp : ∀ x ∈ calls StereoSamples.next (b.duration + n) it', NoPanic x := by
      rw [hc]
      intro x hx
      rcases List.mem_append.1 hx with hx | hx
      · obtain ⟨i, hi, rfl⟩ := List.mem_iff_getElem.1 hx
        rw [List.getElem_zipWith]
        exact noPanic_ok _
      · rw [(List.mem_replicate.1 hx).2]
        exact noPanic_ok _
    exact same_calls (same_stereoNext uncheckedBuild) n it' fun x hx => hp x (calls_mono (by omega) hx)

/-- In a build without overflow checks, sums wrap around: the two kinds of builds do differ where the
checked one panics. -/
example : addU 32 4294967295 1 = .error (.panic .overflow) ∧
    @addU ⟨false⟩ 32 4294967295 1 = .ok 0 := by decide

example : ∀ x ∈ runOps ([VecI32.empty, .empty].map .frame)
    (BufferedReader.new (bytewise (exampleFrame.bytes 16 ++ [0xff#8, 0xff#8]))), NoPanic x := fun x hx =>
  noPanic_of_returns (C26_frames _ (bytewise_remaining _) (not_longZeros (by decide +kernel)) x hx)

end Claxon.Props
