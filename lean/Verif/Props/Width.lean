import Verif.Proof.WidthApi
import Verif.Props.Release
import Verif.Props.Header

/-! # C68: platforms with 32-bit and with 64-bit pointers

`target64` is a platform whose `usize` has 64 bits, `target32` one where it has 32 bits. Where no platform
is mentioned, it is the one with 64 bits. -/

namespace Claxon.Props

open Claxon Spec ReadBytes

variable {σ : Type} [ReadBytes σ] {buffer : VecI32} {b : Block} {s s' : σ}

/-- **C68.** The channels of a decoded block are the same on every platform and in every build. -/
theorem C68_channel (h : readNextOrEof buffer s = (.ok (some b), s')) {c : Nat} (hc : c < b.channels)
    (build : Build) (target : Target) (hw : 32 ≤ target.usizeBits) :
    @Block.channel build target b c = @Block.channel checkedBuild target64 b c := by
  have hs := post_block buffer _ _ _ h b rfl
  rw [@Block.Shape.channel_eq build target _ _ hs hw _ hc,
    @Block.Shape.channel_eq checkedBuild target64 _ _ hs (by decide) _ hc]

/-- **C68.** So are its samples. -/
theorem C68_sample (h : readNextOrEof buffer s = (.ok (some b), s')) {c i : Nat} (hc : c < b.channels)
    (hi : i < b.duration) (build : Build) (target : Target) (hw : 32 ≤ target.usizeBits) :
    @Block.sample build target b c i = @Block.sample checkedBuild target64 b c i := by
  have hs := post_block buffer _ _ _ h b rfl
  rw [@Block.Shape.sample_eq build target _ _ hs hw _ _ hc hi,
    @Block.Shape.sample_eq checkedBuild target64 _ _ hs (by decide) _ _ hc hi]

/-- **C68.** The iterator over the stereo samples of a decoded block, too, yields the same. -/
theorem C68_stereo (h : readNextOrEof buffer s = (.ok (some b), s')) (build : Build) (target : Target)
    (hw : 32 ≤ target.usizeBits) :
    @Block.stereoSamples build target b = @Block.stereoSamples checkedBuild target64 b ∧
    ∀ it, @Block.stereoSamples checkedBuild target64 b = .ok it → ∀ n,
      calls (@StereoSamples.next build target) n it = calls (@StereoSamples.next checkedBuild target64) n it := by
  have hs := post_block buffer _ _ _ h b rfl
  have hb := hs.blockSize
  have h1 : 2 ^ 32 ≤ 2 ^ target.usizeBits := Nat.pow_le_pow_right (by decide) hw
  have e := @Block.stereoSamples_of checkedBuild target64 b (by show _ < 2 ^ 64; omega)
  refine ⟨by rw [@Block.stereoSamples_of build target b (by omega), e], fun it hit n => ?_⟩
  have h2 : b.channels = 2 := by
    by_contra h2
    rw [e, if_pos h2] at hit
    cases hit
  have hw' := fun k => @StereoSamples.calls_width target hw k it
  rw [e, if_neg (by omega), if_pos (by rw [VecI32.len, hs.length, h2, Nat.mul_comm])] at hit
  cases hit
  have hw' := fun k => hw' k (Nat.zero_le _) hb.2
  rw [← hw' n]
  obtain ⟨left, right, it', -, -, hit', hcalls⟩ := C29_stereo h h2 n
  rw [show @Block.stereoSamples checkedBuild target64 b = _ from e, if_neg (by omega), if_pos (by rw [VecI32.len, hs.length, h2, Nat.mul_comm])] at hit'
  cases hit'
  have hc := (hw' (b.duration + n)).trans hcalls
  refine @same_calls _ _ (@StereoSamples.next checkedBuild target) (@StereoSamples.next build target)
    (@same_stereoNext target build) n _ fun x hx => ?_
  have hx := calls_mono (k := b.duration + n) (by omega) hx
  rw [hc] at hx
  rcases List.mem_append.1 hx with hx | hx
  · obtain ⟨i, hi, rfl⟩ := List.mem_iff_getElem.1 hx
    rw [List.getElem_zipWith]
    exact noPanic_ok _
  · rw [(List.mem_replicate.1 hx).2]
    exact noPanic_ok _

/-- **C68.** The iterator over the samples of a stream yields the same on every platform (in a checked
build, for every kind of reader). -/
theorem C68_iterator (target : Target) (hw : 32 ≤ target.usizeBits) (s : σ) (n : Nat) :
    calls (@FlacSamples.next _ _ _ checkedBuild target) n (FlacSamples.new s) =
      calls (@FlacSamples.next _ _ _ checkedBuild target64) n (FlacSamples.new s) :=
  FlacSamples.calls_width target hw n (.inl rfl)

/-- **C68.** It yields the same on every platform and in every build, unless it panics with an arithmetic overflow in a
checked build, for which there must be `2 ^ 32 - 1` zero bits in a row (`C35_overflow`). -/
theorem C68_iteratorUnchecked {r : BufferedReader} {bytes : List U8} {fault : Option Nat}
    (hr : r.Remaining bytes fault) (n : Nat)
    (hp : .error (.panic .overflow) ∉ calls FlacSamples.next n (FlacSamples.new r))
    (build : Build) (target : Target) (hw : 32 ≤ target.usizeBits) :
    calls (@FlacSamples.next _ (@BufferedReader.instReadBytesOfBuild build) _ build target) n (FlacSamples.new r) =
      calls (@FlacSamples.next _ (@BufferedReader.instReadBytesOfBuild checkedBuild) _ checkedBuild target64) n
        (FlacSamples.new r) := by
  have e := @C68_iterator _ (@BufferedReader.instReadBytesOfBuild checkedBuild) target hw r n
  rw [← e]
  refine same_calls (@same_samplesNext _ target build _ _ (BufferedReader.refRd build)) n _ fun x hx => ?_
  rw [e] at hx
  rcases C35_overflow hr n x hx with ⟨y, rfl⟩ | ⟨rfl, -⟩
  · exact noPanic_ok y
  · exact absurd hx hp

/-- Asking for a channel that does not exist panics. -/
def PanicsWithoutChannel (build : Build) (target : Target) (b : Block) : Prop :=
  ∀ c, b.channels ≤ c → c < 2 ^ 32 → ∃ p, @Block.channel build target b c = .error (.panic p)

/-- **C68**, the part about channels that do not exist, holds in checked builds, and for 64-bit pointers.
What is missing are unchecked builds for 32-bit platforms: see `C68_false`. -/
theorem C68_noChannel_partial (h : readNextOrEof buffer s = (.ok (some b), s')) (build : Build)
    (target : Target) (_ : 32 ≤ target.usizeBits)
    (hp : build = checkedBuild ∨ 64 ≤ target.usizeBits) : PanicsWithoutChannel build target b := by
  have hs := post_block buffer _ _ _ h b rfl
  intro c hc hu
  have hle : (c + 1) * b.blockSize < 2 ^ 64 :=
    Nat.lt_of_le_of_lt (Nat.mul_le_mul (show c + 1 ≤ 2 ^ 32 by omega) hs.blockSize.2.le) (by decide)
  have hindex : slice b.buffer.data (c * b.blockSize) ((c + 1) * b.blockSize) = .error (.panic .index) := by
    refine if_neg ?_
    rintro ⟨-, h2⟩
    rw [hs.length] at h2
    have := hs.blockSize
    have h3 : b.channels * b.blockSize < (c + 1) * b.blockSize :=
      Nat.mul_lt_mul_of_pos_right (by omega) (by omega)
    omega
  rcases hp with rfl | hw'
  · have hr : ∀ {a b : Nat}, (∃ x, @mulU checkedBuild target.usizeBits a b = .ok x ∧ x = a * b) ∨
        @mulU checkedBuild target.usizeBits a b = .error (.panic .overflow) := by
      intro a b
      unfold mulU
      split
      · exact .inl ⟨_, rfl, rfl⟩
      · exact .inr rfl
    unfold Block.channel
    rcases hr (a := c) (b := b.blockSize) with ⟨_, h1, rfl⟩ | h1
    · rw [h1]
      show ∃ p, (@addU checkedBuild target.usizeBits c 1 >>= _) = _
      have hr2 : @addU checkedBuild target.usizeBits c 1 = .ok (c + 1) ∨
          @addU checkedBuild target.usizeBits c 1 = .error (.panic .overflow) := by
        unfold addU
        split
        · exact .inl rfl
        · exact .inr rfl
      rcases hr2 with h2 | h2
      · rw [h2]
        show ∃ p, (@mulU checkedBuild target.usizeBits (c + 1) b.blockSize >>= _) = _
        rcases hr (a := c + 1) (b := b.blockSize) with ⟨_, h3, rfl⟩ | h3
        · rw [h3]
          exact ⟨_, hindex⟩
        · rw [h3]
          exact ⟨_, rfl⟩
      · rw [h2]
        exact ⟨_, rfl⟩
    · rw [h1]
      exact ⟨_, rfl⟩
  · have h1 : 2 ^ 64 ≤ 2 ^ target.usizeBits := Nat.pow_le_pow_right (by decide) hw'
    exact ⟨_, (@Block.channel_of build target _ _ (by omega) (by omega)).trans hindex⟩

/-- A frame with one channel and 32768 samples. -/
def widthFrame : Frame where
  header :=
    { variableBlockSize := false, blockSize := .times256 7, sampleRate := .table 8
      channels := .independent 0, sampleSize := .bits8, number := 0, numberLength := 0 }
  subframes := [⟨.constant 1, 0⟩]
  padding := []

theorem widthFrame_wellFormed : widthFrame.WellFormed 8 where
  header := ⟨by unfold CodedNumberAccepted CodedNumberOk; decide, by decide⟩
  sampleSize := rfl
  count := rfl
  subframes := by
    intro p hp
    have : p = (8, ⟨.constant 1, 0⟩) := by simpa [widthFrame, ChannelField.depths] using hp
    subst this
    exact ⟨by decide, by unfold Coding.WellFormed; decide⟩
  padding := by decide
  aligned := by decide +kernel

theorem widthFrame_read : ∃ b r',
    readNextOrEof .empty (BufferedReader.new (bytewise (widthFrame.bytes 8))) = (.ok (some b), r') ∧
    b.channels = 1 ∧ b.duration = 32768 := by
  obtain ⟨r', h1, -⟩ := buffered_frame (rest := []) widthFrame_wellFormed .empty
    (by rw [List.append_nil]; exact bytewise_remaining _)
  exact ⟨_, r', h1, by decide, by decide⟩

/-- A block of 32768 samples has, on a 32-bit platform without overflow checks, a "channel" number 131072:
it is the first one. -/
theorem wrapped_channel (h : readNextOrEof buffer s = (.ok (some b), s')) (hb : b.duration = 32768) :
    @Block.channel uncheckedBuild target32 b 131072 = @Block.channel checkedBuild target64 b 0 := by
  have hs := post_block buffer _ _ _ h b rfl
  rw [@Block.Shape.channel_eq checkedBuild target64 _ _ hs (by decide) _ hs.channels.1]
  have hb : b.blockSize = 32768 := hb
  unfold Block.channel
  rw [hb]
  rfl

/-- **C68** is false: on a 32-bit platform, without overflow checks, there is a decoded block of one channel
that has a channel with number 131072. -/
theorem C68_false : ¬ ∀ (r r' : BufferedReader) (b : Block),
    readNextOrEof .empty r = (.ok (some b), r') → PanicsWithoutChannel uncheckedBuild target32 b := by
  intro h
  obtain ⟨b, r', h1, hc, hd⟩ := widthFrame_read
  obtain ⟨p, hp⟩ := h _ _ _ h1 131072 (by omega) (by decide)
  rw [wrapped_channel h1 hd] at hp
  obtain ⟨xs, hx, -⟩ := C29_channel h1 (show 0 < b.channels by omega)
  rw [show @Block.channel checkedBuild target64 b 0 = _ from hx] at hp
  cases hp

example : 32 ≤ target32.usizeBits ∧ 64 ≤ target64.usizeBits := by decide

example : ∃ b r', readNextOrEof .empty (BufferedReader.new (bytewise (exampleFrame.bytes 16))) =
    (.ok (some b), r') ∧ 1 < b.channels ∧ 3 < b.duration := by
  obtain ⟨b, r', h1, h2, h3⟩ := example_read
  exact ⟨b, r', h1, by omega, by omega⟩

example : (BufferedReader.new (bytewise (exampleFrame.bytes 16))).Remaining (exampleFrame.bytes 16) none ∧
    ∀ n, .error (.panic .overflow) ∉ calls FlacSamples.next n
      (FlacSamples.new (BufferedReader.new (bytewise (exampleFrame.bytes 16)))) :=
  ⟨bytewise_remaining _, fun n h =>
    (C35_noPanic (bytewise_remaining _) (not_longZeros (by decide +kernel)) n _ h).elim nofun⟩

/-- What C68 says of this block: on a 32-bit platform without overflow checks, its samples are the same. -/
example : ∃ (b : Block) (r' : BufferedReader),
    readNextOrEof .empty (BufferedReader.new (bytewise (exampleFrame.bytes 16))) = (.ok (some b), r') ∧
    @Block.channel uncheckedBuild target32 b 1 = @Block.channel checkedBuild target64 b 1 ∧
    @Block.sample uncheckedBuild target32 b 1 3 = @Block.sample checkedBuild target64 b 1 3 ∧
    @Block.stereoSamples uncheckedBuild target32 b = @Block.stereoSamples checkedBuild target64 b ∧
    PanicsWithoutChannel checkedBuild target32 b := by
  obtain ⟨b, r', h1, h2, h3⟩ := example_read
  exact ⟨b, r', h1, C68_channel h1 (by omega) _ _ (by decide), C68_sample h1 (by omega) (by omega) _ _ (by decide),
    (C68_stereo h1 _ _ (by decide)).1, C68_noChannel_partial h1 _ _ (by decide) (.inl rfl)⟩

end Claxon.Props
