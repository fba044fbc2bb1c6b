import Verif.Proof.Width
import Verif.Spec.Checked
import Verif.Spec.Interleave
import Verif.Spec.Client
import Verif.Model.Lib
import Verif.Proof.BlockPost
import Verif.Proof.Dec

/-! # The sample iterator -/

namespace Claxon

open Spec ReadBytes

variable {σ : Type}

/-- The iterator has yielded the last sample of its block, or is new. -/
structure FlacSamples.AtEnd (it : FlacSamples σ) (s : σ) (buffer : VecI32) : Prop where
  reader : it.frameReader = s
  buffer : it.block.intoBuffer = buffer
  notFailed : it.hasFailed = false
  channel : it.block.channels ≤ it.channel + 1
  sample : it.block.duration ≤ it.sample + 1
  channelSmall : it.channel + 1 < 2 ^ 32
  sampleSmall : it.sample + 1 < 2 ^ 32

/-- The iterator has yielded sample number `p` of block `b`. -/
abbrev FlacSamples.at (s : σ) (b : Block) (p : Nat) : FlacSamples σ :=
  { frameReader := s, block := b, sample := p / b.channels, channel := p % b.channels, hasFailed := false }

/-- Sample number `p` of a block. -/
def Block.nth (b : Block) (p : Nat) : Res I32 := b.sample (p % b.channels) (p / b.channels)

theorem FlacSamples.atEnd_new (s : σ) : (FlacSamples.new s).AtEnd s .empty := by
  refine ⟨rfl, rfl, rfl, ?_, ?_, ?_, ?_⟩ <;> simp [FlacSamples.new, Block.empty, Block.duration]

theorem Block.Shape.nth_ok {b : Block} {buffer : VecI32} (h : b.Shape buffer) {p : Nat}
    (hp : p < b.duration * b.channels) : ∃ x, b.nth p = .ok x := by
  have hc := h.channels
  have h1 : p % b.channels < b.channels := Nat.mod_lt _ (by omega)
  have h2 : p / b.channels < b.blockSize := by
    rw [Nat.div_lt_iff_lt_mul (by omega)]; exact hp
  have h3 : p % b.channels * b.blockSize + p / b.channels < b.channels * b.blockSize := by
    calc p % b.channels * b.blockSize + p / b.channels < p % b.channels * b.blockSize + b.blockSize := by omega
      _ = (p % b.channels + 1) * b.blockSize := by rw [Nat.add_mul, Nat.one_mul]
      _ ≤ b.channels * b.blockSize := Nat.mul_le_mul_right _ h1
  have h4 : b.channels * b.blockSize ≤ 8 * 65535 := Nat.mul_le_mul hc.2 (by have := h.blockSize; omega)
  rw [Block.nth, Block.sample_of (Nat.lt_of_lt_of_le h3 (Nat.le_trans h4 (by decide)))]
  exact ⟨_, index_ok (by rw [h.length]; exact h3)⟩

theorem Block.Shape.nth_zero {b : Block} {buffer : VecI32} (h : b.Shape buffer) :
    ∃ x, b.nth 0 = .ok x ∧ b.sample 0 0 = .ok x := by
  obtain ⟨x, hx⟩ := h.nth_ok (p := 0) (by
    have := h.channels; have := h.blockSize; exact Nat.mul_pos (by show 0 < b.blockSize; omega) (by omega))
  refine ⟨x, hx, ?_⟩
  unfold Block.nth at hx
  rwa [Nat.zero_mod, Nat.zero_div] at hx

theorem FlacSamples.atEnd_at {b : Block} {buffer : VecI32} (h : b.Shape buffer) (s : σ) {p : Nat}
    (hp : p + 1 = b.duration * b.channels) : (FlacSamples.at s b p).AtEnd s b.intoBuffer := by
  have hc := h.channels
  have hb := h.blockSize
  have e : p = (b.blockSize - 1) * b.channels + (b.channels - 1) := by
    have : b.blockSize * b.channels = (b.blockSize - 1) * b.channels + b.channels := by
      conv_lhs => rw [show b.blockSize = b.blockSize - 1 + 1 by omega, Nat.add_mul, Nat.one_mul]
    have hp' : p + 1 = b.blockSize * b.channels := hp
    omega
  have e1 : p % b.channels = b.channels - 1 := by
    rw [e, Nat.mul_comm, Nat.mul_add_mod, Nat.mod_eq_of_lt (by omega)]
  have e2 : p / b.channels = b.blockSize - 1 := by
    rw [e, Nat.add_comm, Nat.add_mul_div_right _ _ (by omega), Nat.div_eq_of_lt (by omega), Nat.zero_add]
  refine ⟨rfl, rfl, rfl, ?_, ?_, ?_, ?_⟩
  · show b.channels ≤ p % b.channels + 1
    omega
  · show b.blockSize ≤ p / b.channels + 1
    omega
  · show p % b.channels + 1 < 2 ^ 32
    omega
  · show p / b.channels + 1 < 2 ^ 32
    omega

/-- The next sample of the same block. -/
theorem Block.Shape.step {b : Block} {buffer : VecI32} (h : b.Shape buffer) {p : Nat}
    (hp : p + 1 < b.duration * b.channels) :
    (p % b.channels + 1 < b.channels ∧ (p + 1) % b.channels = p % b.channels + 1 ∧
      (p + 1) / b.channels = p / b.channels) ∨
    (b.channels ≤ p % b.channels + 1 ∧ (p + 1) % b.channels = 0 ∧
      (p + 1) / b.channels = p / b.channels + 1 ∧ p / b.channels + 1 < b.duration) := by
  have hc := h.channels
  have h1 : p % b.channels < b.channels := Nat.mod_lt _ (by omega)
  have e := Nat.div_add_mod p b.channels
  by_cases hlt : p % b.channels + 1 < b.channels
  · left
    have e1 : p + 1 = b.channels * (p / b.channels) + (p % b.channels + 1) := by omega
    refine ⟨hlt, ?_, ?_⟩
    · conv_lhs => rw [e1, Nat.mul_add_mod, Nat.mod_eq_of_lt hlt]
    · conv_lhs => rw [e1, Nat.mul_add_div (by omega), Nat.div_eq_of_lt hlt, Nat.add_zero]
  · right
    have e1 : p + 1 = b.channels * (p / b.channels + 1) := by rw [Nat.mul_add]; omega
    have e2 : (p + 1) / b.channels = p / b.channels + 1 := by
      conv_lhs => rw [e1, Nat.mul_div_cancel_left _ (by omega)]
    refine ⟨by omega, ?_, e2, ?_⟩
    · conv_lhs => rw [e1, Nat.mul_mod_right]
    · rw [← e2, Nat.div_lt_iff_lt_mul (by omega)]
      exact hp

section

variable [ReadBytes σ]

omit [ReadBytes σ] in
theorem FlacSamples.current_run {it : FlacSamples σ} {x : I32}
    (h : it.block.sample it.channel it.sample = .ok x) : current it = (.ok (some (.ok x)), it) := by
  unfold current
  rw [Dec.bind_get_run, Dec.bind_liftM_of h]
  rfl

/-- Inside of a block. -/
theorem FlacSamples.next_inside [FuzzCfg] {b : Block} {buffer : VecI32} (h : b.Shape buffer) (s : σ) {p : Nat}
    (hp : p + 1 < b.duration * b.channels) :
    ∃ x, b.nth (p + 1) = .ok x ∧
      next (FlacSamples.at s b p) = (.ok (some (.ok x)), FlacSamples.at s b (p + 1)) := by
  obtain ⟨x, hx⟩ := h.nth_ok hp
  refine ⟨x, hx, ?_⟩
  have hc := h.channels
  have hb : b.duration < 2 ^ 16 := h.blockSize.2
  have h1 : p % b.channels < b.channels := Nat.mod_lt _ (by omega)
  unfold next
  rw [Dec.bind_get_run]
  rw [if_neg (show ¬ (FlacSamples.at s b p).hasFailed = true from Bool.false_ne_true)]
  simp only [FlacSamples.at]
  rw [Dec.bind_liftM_of (addU_ok (by omega))]
  unfold Block.nth at hx
  rcases h.step hp with ⟨h2, h3, h4⟩ | ⟨h2, h3, h4, h5⟩
  · rw [if_neg (show ¬ p % b.channels + 1 ≥ b.channels by omega), Dec.bind_set_run]
    rw [h3, h4] at hx ⊢
    exact FlacSamples.current_run hx
  · rw [if_pos h2, Dec.bind_liftM_of (addU_ok (by omega)), Dec.bind_set_run]
    rw [if_neg (show ¬ p / b.channels + 1 ≥ b.duration by omega)]
    rw [h3, h4] at hx ⊢
    exact FlacSamples.current_run hx

/-- What a call does at the end of a block. -/
def FlacSamples.afterBlock [FuzzCfg] (buffer : VecI32) (s : σ) :
    Except Fail (Option (Except Error I32)) × FlacSamples σ :=
  match readNextOrEof buffer s with
  | (.ok (some b), s') => (FlacSamples.current (FlacSamples.at s' b 0))
  | (.ok none, s') => (.ok none, ⟨s', .empty, 0, 0, false⟩)
  | (.error (.err e), s') => (.ok (some (.error e)), ⟨s', .empty, 0, 0, true⟩)
  | (.error f, s') => (.error f, ⟨s', .empty, 0, 0, false⟩)

theorem FlacSamples.next_atEnd [FuzzCfg] {it : FlacSamples σ} {s : σ} {buffer : VecI32} (h : it.AtEnd s buffer) :
    next it = afterBlock buffer s := by
  obtain ⟨hr, hbuf, hf, hc, hs, hc', hs'⟩ := h
  unfold next
  rw [Dec.bind_get_run]
  rw [if_neg (show ¬ it.hasFailed = true by simp [hf]), Dec.bind_liftM_of (addU_ok hc'), if_pos hc, Dec.bind_liftM_of (addU_ok hs'), Dec.bind_set_run, if_pos hs]
  unfold nextBlock
  rw [Dec.bind_get_run, Dec.bind_set_run]
  simp only [hbuf]
  rw [Dec.bind_def]
  simp only [Dec.catchErr, onReader, Dec.zoom_run, hr]
  unfold afterBlock
  rcases readNextOrEof buffer s with ⟨e | _ | b, s'⟩
  · cases e <;> simp [Dec.bind_get_run, hf]; rfl
  · simp [hf]
  · simp only
    rw [Dec.bind_get_run, Dec.bind_set_run]
    simp [FlacSamples.at, hf]

theorem FlacSamples.next_block [FuzzCfg] {it : FlacSamples σ} {s s' : σ} {buffer : VecI32} {b : Block}
    (h : it.AtEnd s buffer) (hb : readNextOrEof buffer s = (.ok (some b), s')) :
    ∃ x, b.nth 0 = .ok x ∧ next it = (.ok (some (.ok x)), FlacSamples.at s' b 0) := by
  obtain ⟨x, h1, h2⟩ := (post_block buffer _ _ _ hb b rfl).nth_zero
  refine ⟨x, h1, ?_⟩
  rw [next_atEnd h]
  unfold afterBlock
  rw [hb]
  apply current_run
  show b.sample (0 % b.channels) (0 / b.channels) = _
  rw [Nat.zero_mod, Nat.zero_div]
  exact h2

theorem FlacSamples.next_failed [FuzzCfg] {it : FlacSamples σ} (h : it.hasFailed = true) :
    next it = (.ok none, it) := by
  unfold next
  rw [Dec.bind_get_run]
  rw [if_pos h]
  rfl


/-! ### Many calls -/

/-- What the iterator yields for a sample. -/
def yieldOf (x : Res I32) : Except Fail (Option (Except Error I32)) := x.map fun v => some (.ok v)

theorem FlacSamples.calls_inside [FuzzCfg] {b : Block} {buffer : VecI32} (h : b.Shape buffer) (s : σ) (more : Nat) :
    ∀ k p, p + 1 + k = b.duration * b.channels →
      calls next (k + more) (FlacSamples.at s b p) =
        (List.range' (p + 1) k).map (fun q => yieldOf (b.nth q)) ++
          calls next more (FlacSamples.at s b (p + k))
  | 0, p, _ => by rw [Nat.zero_add]; rfl
  | k + 1, p, hp => by
    obtain ⟨x, h1, h2⟩ := next_inside h s (p := p) (by omega)
    rw [show k + 1 + more = k + more + 1 by omega, calls, h2]
    simp only
    rw [calls_inside h s more k (p + 1) (by omega), List.range'_succ, List.map_cons, List.cons_append, h1,
      show p + 1 + k = p + (k + 1) by omega]
    rfl

theorem FlacSamples.calls_block [FuzzCfg] {it : FlacSamples σ} {s s' : σ} {buffer : VecI32} {b : Block}
    (h : it.AtEnd s buffer) (hb : readNextOrEof buffer s = (.ok (some b), s')) :
    ∃ it', it'.AtEnd s' b.intoBuffer ∧ ∀ more,
      calls next (b.duration * b.channels + more) it =
        (List.range (b.duration * b.channels)).map (fun q => yieldOf (b.nth q)) ++ calls next more it' := by
  have hs := post_block buffer _ _ _ hb b rfl
  obtain ⟨x, h1, h2⟩ := next_block h hb
  have hpos : 0 < b.duration * b.channels := by
    have := hs.channels; have := hs.blockSize
    exact Nat.mul_pos (by show 0 < b.blockSize; omega) (by omega)
  obtain ⟨n, hn⟩ : ∃ n, b.duration * b.channels = n + 1 := ⟨b.duration * b.channels - 1, by omega⟩
  refine ⟨FlacSamples.at s' b n, atEnd_at hs s' (by omega), fun more => ?_⟩
  rw [hn, show n + 1 + more = n + more + 1 by omega, calls, h2]
  simp only
  rw [calls_inside hs s' more n 0 (by omega), List.range_eq_range', List.range'_succ, List.map_cons,
    List.cons_append, h1, Nat.zero_add, Nat.zero_add]
  rfl

theorem range_mul {α : Type} (f : Nat → Nat → α) (n : Nat) (hn : 0 < n) : ∀ d,
    (List.range (d * n)).map (fun p => f (p % n) (p / n)) =
      (List.range d).flatMap fun i => (List.range n).map fun c => f c i
  | 0 => by simp
  | d + 1 => by
    rw [Nat.add_mul, Nat.one_mul, List.range_add, List.map_append, range_mul f n hn d, List.range_succ,
      List.flatMap_append]
    congr 1
    rw [List.map_map]
    simp only [List.flatMap_cons, List.flatMap_nil, List.append_nil]
    apply List.map_congr_left
    intro c hc
    have hc' := List.mem_range.1 hc
    simp only [Function.comp]
    rw [Nat.mul_comm, Nat.mul_add_mod, Nat.mul_add_div hn, Nat.mod_eq_of_lt hc', Nat.div_eq_of_lt hc',
      Nat.add_zero]

theorem blockSamples_eq {b : Block} (h : 0 < b.channels) :
    blockSamples b = (List.range (b.duration * b.channels)).map b.nth :=
  (range_mul b.sample b.channels h b.duration).symm

theorem length_blockSamples {b : Block} : (blockSamples b).length = b.duration * b.channels := by
  simp [blockSamples, List.map_const']

/-- All samples of some blocks. -/
theorem FlacSamples.calls_blocks [FuzzCfg] {it : FlacSamples σ} {s s' : σ} {buffer buffer' : VecI32}
    {blocks : List Block} (h : it.AtEnd s buffer) (hb : ReadsBlocks s buffer blocks s' buffer') :
    ∃ it', it'.AtEnd s' buffer' ∧ ∀ more,
      calls next ((blocks.flatMap blockSamples).length + more) it =
        (blocks.flatMap blockSamples).map yieldOf ++ calls next more it' := by
  induction hb generalizing it with
  | nil => exact ⟨it, h, fun more => by simp⟩
  | cons hread next ih =>
    rename_i s s₁ s' buffer buffer' b blocks
    obtain ⟨it₁, h1, h2⟩ := calls_block h hread
    obtain ⟨it₂, h3, h4⟩ := ih h1
    have hs := post_block buffer _ _ _ hread b rfl
    refine ⟨it₂, h3, fun more => ?_⟩
    rw [List.flatMap_cons, List.length_append, length_blockSamples, Nat.add_assoc, h2, h4,
      List.map_append, List.append_assoc, blockSamples_eq (by have := hs.channels; omega), List.map_map]
    rfl

end

end Claxon
