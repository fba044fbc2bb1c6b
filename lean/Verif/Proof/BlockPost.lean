import Verif.Proof.Independent
import Verif.Proof.Width

/-! # The shape of the blocks that are returned, for every reader -/

namespace Claxon

open Spec Bitstream

variable {σ : Type}

theorem Agree.post {L n : Nat} {m : Dec σ (List I32)} (h : Agree L n m m) :
    Post m (fun xs => xs.length = L) := by
  intro s a s' hm
  have := h s
  rw [hm] at this
  cases this with
  | ok _ ha _ _ => exact ha

theorem post_withSlice {τ : Type} {buffer : List I32} {a b : Nat} {f : List I32 → Dec τ (List I32)}
    (hf : ∀ xs : List I32, xs.length = b - a → Post (f xs) (fun ys => ys.length = xs.length)) :
    Post (withSlice buffer a b f) (fun ys => ys.length = buffer.length) := by
  unfold withSlice
  refine Post.bind (P := fun s => s.length = b - a ∧ a ≤ b ∧ b ≤ buffer.length) (Post.lift ?_) ?_
  · intro s hs
    unfold slice at hs
    split at hs
    · rename_i h
      cases hs
      simp
      omega
    · cases hs
  · rintro s ⟨h1, h2, h3⟩
    refine Post.bind (hf s h1) (fun ys hy => Post.pure ?_)
    simp
    omega

theorem length_decodeLeftSide (xs : List I32) : (decodeLeftSide xs).length = xs.length := by
  unfold decodeLeftSide
  simp
  omega

theorem length_decodeRightSide {xs : List I32} (h : xs.length % 2 = 0) :
    (decodeRightSide xs).length = xs.length := by
  unfold decodeRightSide
  simp
  omega

theorem length_decodeMidSide (xs : List I32) : (decodeMidSide xs).length = xs.length := by
  unfold decodeMidSide
  simp
  omega

section

variable [ReadBytes σ]

theorem post_subframe (bps : Nat) {xs : List I32} (h : xs.length < 2 ^ 16) :
    Post (decodeSubframe bps xs : Dec (Bitstream σ) _) (fun ys => ys.length = xs.length) :=
  (fills_subframe (σ := σ) bps xs xs rfl h).post

theorem post_independent (bps : Nat) {bs : Nat} (hbs : bs < 2 ^ 16) : ∀ (n ch : Nat) (xs : List I32),
    Post (decodeIndependent bps bs n ch xs : Dec (Bitstream σ) _) (fun ys => ys.length = xs.length)
  | 0, _, _ => Post.pure rfl
  | n + 1, ch, xs => by
    unfold decodeIndependent
    refine Post.bind (post_withSlice (fun ys hy => post_subframe _ ?_)) (fun ys hy => ?_)
    · rw [hy, Nat.add_mul]; omega
    · exact (post_independent bps hbs n (ch + 1) ys).mono (fun zs hz => hz.trans hy)

theorem post_channels (ca : ChannelAssignment) (bps : Nat) {bs : Nat} (hbs : bs < 2 ^ 16) (xs : List I32) :
    Post (decodeChannels ca bps bs xs : Dec (Bitstream σ) _) (fun ys => ys.length = xs.length) := by
  have stereo : ∀ (b1 b2 : Nat) (g : List I32 → List I32), (∀ ys : List I32, ys.length % 2 = 0 →
      (g ys).length = ys.length) →
      Post (do
        let ys ← withSlice xs 0 bs (decodeSubframe b1)
        let ys ← withSlice ys bs (bs * 2) (decodeSubframe b2)
        withSlice ys 0 (bs * 2) fun b => pure (g b) : Dec (Bitstream σ) _)
        (fun ys => ys.length = xs.length) := by
    intro b1 b2 g hg
    refine Post.bind (post_withSlice (fun ys hy => post_subframe _ (by omega))) (fun ys hy => ?_)
    refine Post.bind (post_withSlice (fun zs hz => post_subframe _ (by omega))) (fun zs hz => ?_)
    refine (post_withSlice (fun ws hw => Post.pure (hg ws (by omega)))).mono ?_
    intro ws hw
    omega
  cases ca with
  | independent n => exact post_independent bps hbs n 0 xs
  | leftSideStereo => exact stereo _ _ _ (fun ys _ => length_decodeLeftSide ys)
  | rightSideStereo => exact stereo _ _ _ (fun ys h => length_decodeRightSide h)
  | midSideStereo => exact stereo _ _ _ (fun ys _ => length_decodeMidSide ys)

omit [ReadBytes σ] in
theorem Post.withBitstream {α : Type} {m : Dec (Bitstream σ) α} {Q : α → Prop} (h : Post m Q) :
    Post (withBitstream m) Q := by
  intro s a s' hm
  unfold Claxon.withBitstream at hm
  simp only [Prod.mk.injEq] at hm
  exact h (Bitstream.new s) a (m (Bitstream.new s)).2 (Prod.ext hm.1 rfl)

/-- The shape of a block that was decoded into `buffer`. -/
structure Block.Shape (b : Block) (buffer : VecI32) : Prop where
  blockSize : 1 ≤ b.blockSize ∧ b.blockSize < 2 ^ 16
  channels : 1 ≤ b.channels ∧ b.channels ≤ 8
  length : b.buffer.data.length = b.channels * b.blockSize
  cap : b.buffer.cap = (ensureBufferLen buffer (b.channels * b.blockSize)).cap

section

variable [Build] [Target] {b : Block} {buffer : VecI32}

omit [Build] in
/-- On every platform, the positions in a decoded block can be computed. -/
theorem Block.Shape.fits (h : b.Shape buffer) (hw : 32 ≤ Target.usizeBits) {c : Nat} (hc : c < b.channels) :
    (c + 1) * b.blockSize < 2 ^ Target.usizeBits ∧ c + 1 < 2 ^ Target.usizeBits := by
  have h1 : 2 ^ 32 ≤ 2 ^ Target.usizeBits := Nat.pow_le_pow_right (by decide) hw
  have h2 : (c + 1) * b.blockSize ≤ 8 * 2 ^ 16 :=
    Nat.mul_le_mul (by have := h.channels; omega) h.blockSize.2.le
  have := h.channels
  omega

theorem Block.Shape.channel_eq (h : b.Shape buffer) (hw : 32 ≤ Target.usizeBits) {c : Nat}
    (hc : c < b.channels) :
    b.channel c = slice b.buffer.data (c * b.blockSize) ((c + 1) * b.blockSize) :=
  Block.channel_of (h.fits hw hc).1 (h.fits hw hc).2

theorem Block.Shape.sample_eq (h : b.Shape buffer) (hw : 32 ≤ Target.usizeBits) {c i : Nat}
    (hc : c < b.channels) (hi : i < b.blockSize) :
    b.sample c i = index b.buffer.data (c * b.blockSize + i) := by
  refine Block.sample_of (Nat.lt_trans ?_ (h.fits hw hc).1)
  rw [Nat.add_mul, Nat.one_mul]
  omega

end

theorem post_body [FuzzCfg] {h : FrameHeader} (hh : h.Bounded) (buffer : VecI32) :
    Post (readFrameBody h buffer : Dec (Crc16Reader σ) _) (fun o => ∀ b, o = some b → b.Shape buffer) := by
  have hbs := hh.blockSize
  have hch := hh.channels
  unfold readFrameBody
  simp only
  cases h.bitsPerSample with
  | none => exact Post.fail
  | some bps =>
    simp only
    refine Post.any (fun _ => ?_)
    refine Post.bind (Post.withBitstream (post_channels _ _ hbs.2 _)) (fun data hd => ?_)
    rw [ensureBufferLen_length] at hd
    refine Post.any (fun _ => Post.any (fun _ => Post.ite (fun _ => Post.fail) (fun _ => ?_)))
    refine Post.any (fun time => ?_)
    refine Post.bind (P := fun b => b.Shape buffer) (Post.lift ?_)
      (fun b hb => Post.pure (by intro b' h; cases h; exact hb))
    intro b hb
    unfold Block.new at hb
    rw [if_neg (by omega)] at hb
    cases hb
    have hlt : h.channels * h.blockSize < 2 ^ 32 :=
      calc h.channels * h.blockSize ≤ 8 * 2 ^ 16 := Nat.mul_le_mul hch.2 hbs.2.le
        _ < 2 ^ 32 := by decide
    have hc : data.length % 2 ^ 32 / h.blockSize = h.channels := by
      rw [Nat.mod_eq_of_lt (by omega), hd, Nat.mul_div_cancel _ (by omega)]
    refine ⟨hbs, ?_, ?_, ?_⟩
    · show 1 ≤ data.length % 2 ^ 32 / h.blockSize ∧ data.length % 2 ^ 32 / h.blockSize ≤ 8
      rw [hc]; exact hch
    · show data.length = data.length % 2 ^ 32 / h.blockSize * h.blockSize
      rw [hc]; exact hd
    · show _ = (ensureBufferLen buffer (data.length % 2 ^ 32 / h.blockSize * h.blockSize)).cap
      rw [hc]

/-- Every block that is returned has the right shape. -/
theorem post_block [FuzzCfg] (buffer : VecI32) :
    Post (readNextOrEof buffer : Dec σ _) (fun o => ∀ b, o = some b → b.Shape buffer) := by
  intro s o s' hm b hb
  subst hb
  unfold readNextOrEof withCrc16 at hm
  simp only [Dec.bind_def] at hm
  rcases hx : (readFrameHeaderOrEof (Crc16Reader.new s)) with ⟨e | _ | h, s1⟩
  · rw [hx] at hm; cases hm
  · rw [hx] at hm; cases hm
  · rw [hx] at hm
    have hh := post_header _ _ _ hx h rfl
    simp only [Prod.mk.injEq] at hm
    exact post_body hh buffer s1 (some b) (readFrameBody h buffer s1).2 (Prod.ext hm.1 rfl) b rfl

end

end Claxon
