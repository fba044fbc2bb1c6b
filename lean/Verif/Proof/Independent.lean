import Verif.Proof.Residual
import Verif.Proof.Post
import Verif.Spec.Block

/-! # The contents of the buffer do not matter

Everything that decodes into a buffer does the same for all buffers of the same length, and overwrites the
whole buffer. -/

namespace Claxon

open Spec Bitstream

variable {σ α : Type}

/-- The two outcomes are the same failure, or two lists of length `L` of which the first `n` elements are
the same; the reader ends up in the same state. -/
inductive AgreeAt (L n : Nat) : Except Fail (List I32) × σ → Except Fail (List I32) × σ → Prop where
  | fail (e : Fail) (s : σ) : AgreeAt L n (.error e, s) (.error e, s)
  | ok {a b : List I32} (s : σ) (ha : a.length = L) (hb : b.length = L) (h : a.take n = b.take n) :
      AgreeAt L n (.ok a, s) (.ok b, s)

/-- The outcomes agree for all states. -/
def Agree (L n : Nat) (m₁ m₂ : Dec σ (List I32)) : Prop := ∀ s, AgreeAt L n (m₁ s) (m₂ s)

namespace Agree

variable {L n k : Nat}

theorem pure {a b : List I32} (ha : a.length = L) (hb : b.length = L) (h : a.take n = b.take n) :
    Agree L n (Pure.pure a : Dec σ _) (Pure.pure b) := fun s => .ok s ha hb h

theorem fail (e : Fail) : Agree L n (Dec.fail e : Dec σ _) (Dec.fail e) := fun s => .fail e s

theorem bind {m₁ m₂ : Dec σ (List I32)} {f g : List I32 → Dec σ (List I32)} {K : Nat}
    (hm : Agree L n m₁ m₂)
    (hf : ∀ a b, a.length = L → b.length = L → a.take n = b.take n → Agree K k (f a) (g b)) :
    Agree K k (m₁ >>= f) (m₂ >>= g) := by
  intro s
  rw [Dec.bind_def, Dec.bind_def]
  have := hm s
  generalize m₁ s = x at this ⊢
  generalize m₂ s = y at this ⊢
  cases this with
  | fail e s => exact .fail e s
  | ok s ha hb h => exact hf _ _ ha hb h s

/-- The same code first. -/
theorem same {m : Dec σ α} {f g : α → Dec σ (List I32)} (hf : ∀ a, Agree L n (f a) (g a)) :
    Agree L n (m >>= f) (m >>= g) := by
  intro s
  rw [Dec.bind_def, Dec.bind_def]
  generalize m s = x
  rcases x with ⟨e | a, s'⟩
  · exact .fail e s'
  · exact hf a s'

theorem ite {c : Prop} [Decidable c] {m₁ m₂ m₃ m₄ : Dec σ (List I32)} (h₁ : c → Agree L n m₁ m₂)
    (h₂ : ¬ c → Agree L n m₃ m₄) : Agree L n (if c then m₁ else m₃) (if c then m₂ else m₄) := by
  split
  · exact h₁ ‹_›
  · exact h₂ ‹_›

/-- Lists that agree on their whole length are equal. -/
theorem eq {m₁ m₂ : Dec σ (List I32)} (h : Agree L L m₁ m₂) : m₁ = m₂ := by
  funext s
  have := h s
  generalize m₁ s = x at this ⊢
  generalize m₂ s = y at this ⊢
  cases this with
  | fail e s => rfl
  | ok s ha hb h =>
    rw [List.take_of_length_le (by omega), List.take_of_length_le (by omega)] at h
    rw [h]

theorem of_eq {a b : List I32} (ha : a.length = L) (hb : b.length = L) (h : a.take L = b.take L) : a = b := by
  rwa [List.take_of_length_le (by omega), List.take_of_length_le (by omega)] at h

theorem length {m₁ m₂ : Dec σ (List I32)} (h : Agree L n m₁ m₂) {s s' : σ} {a : List I32}
    (hm : m₁ s = (.ok a, s')) : a.length = L := by
  have := h s
  rw [hm] at this
  generalize m₂ s = y at this
  cases this with
  | ok s ha hb h => exact ha

end Agree

/-- `f` does the same for all buffers of the same length (less than `2 ^ 16`), and fills them. -/
def Fills (f : List I32 → Dec σ (List I32)) : Prop :=
  ∀ b₁ b₂ : List I32, b₁.length = b₂.length → b₁.length < 2 ^ 16 →
    Agree b₁.length b₁.length (f b₁) (f b₂)

theorem Agree.withSlice {L a b : Nat} {f : List I32 → Dec σ (List I32)} (hf : Fills f)
    (hab : b - a < 2 ^ 16) {b₁ b₂ : List I32} (h₁ : b₁.length = L) (h₂ : b₂.length = L)
    (h : b₁.take a = b₂.take a) : Agree L b (withSlice b₁ a b f) (withSlice b₂ a b f) := by
  unfold Claxon.withSlice
  by_cases hr : a ≤ b ∧ b ≤ L
  · have hs₁ : slice b₁ a b = .ok ((b₁.take b).drop a) := slice_ok (by omega)
    have hs₂ : slice b₂ a b = .ok ((b₂.take b).drop a) := slice_ok (by omega)
    rw [hs₁, hs₂]
    show Agree L b (f ((b₁.take b).drop a) >>= _) (f ((b₂.take b).drop a) >>= _)
    have hl₁ : ((b₁.take b).drop a).length = b - a := by simp; omega
    have hl₂ : ((b₂.take b).drop a).length = b - a := by simp; omega
    refine Agree.bind (hf _ _ (by omega) (by omega)) ?_
    intro x y hx hy hxy
    obtain rfl := Agree.of_eq hx hy hxy
    rw [hl₁] at hx
    refine Agree.pure (by simp; omega) (by simp; omega) ?_
    rw [h, List.take_append_of_le_length (l₁ := b₂.take a ++ x) (by simp; omega),
      List.take_append_of_le_length (l₁ := b₂.take a ++ x) (by simp; omega)]
  · have hs₁ : slice b₁ a b = panicRes .index := if_neg (by omega)
    have hs₂ : slice b₂ a b = panicRes .index := if_neg (by omega)
    rw [hs₁, hs₂]
    exact Agree.fail _

section

variable [ReadBytes σ]

omit [ReadBytes σ] in
theorem fills_loop {step : Dec (Bitstream σ) I32} {loop : List I32 → Dec (Bitstream σ) (List I32)}
    (h0 : loop [] = pure [])
    (h1 : ∀ x xs, loop (x :: xs) = (do let s ← step; let r ← loop xs; pure (s :: r))) : Fills loop := by
  intro b₁
  induction b₁ with
  | nil =>
    intro b₂ hl _
    rw [List.eq_nil_of_length_eq_zero hl.symm, h0]
    exact Agree.pure rfl rfl rfl
  | cons x xs ih =>
    intro b₂ hl hlt
    cases b₂ with
    | nil => simp at hl
    | cons y ys =>
      rw [h1, h1]
      refine Agree.same (fun s => ?_)
      refine Agree.bind (ih ys (by simpa using hl) (by simp at hlt; omega)) ?_
      intro a b ha hb hab
      obtain rfl := Agree.of_eq ha hb hab
      exact Agree.pure (by simp [ha]) (by simp [ha]) rfl

theorem fills_small (k : Nat) : Fills (ricePartitionSmall k : List I32 → Dec (Bitstream σ) _) :=
  fills_loop (step := do
    let q ← readUnary
    let r ← readLeqU8 k
    let hi ← shl (BitVec.ofNat 32 q) k
    pure (riceToSigned (hi ||| r.setWidth 32))) rfl (fun x xs => by
      simp only [ricePartitionSmall, bind_assoc, pure_bind])

theorem fills_large (k : Nat) : Fills (ricePartitionLarge k : List I32 → Dec (Bitstream σ) _) :=
  fills_loop (step := do
    let q ← readUnary
    let r ← readGtU8LeqU16 k
    let hi ← shl (BitVec.ofNat 32 q) k
    pure (riceToSigned (hi ||| r))) rfl (fun x xs => by
      simp only [ricePartitionLarge, bind_assoc, pure_bind])

theorem fills_rice2Loop (k : Nat) : Fills (rice2PartitionLoop k : List I32 → Dec (Bitstream σ) _) :=
  fills_loop (step := do
    let q ← readUnary
    let r ← readLeqU32 k
    let hi ← shl (BitVec.ofNat 32 q) k
    pure (riceToSigned (hi ||| r))) rfl (fun x xs => by
      simp only [rice2PartitionLoop, bind_assoc, pure_bind])

theorem fills_verbatimLoop (bps : Nat) : Fills (verbatimLoop bps : List I32 → Dec (Bitstream σ) _) :=
  fills_loop (step := do
    let u ← readLeqU32 bps
    let s ← extendSignU32 u bps
    pure s) rfl (fun x xs => by
      simp only [verbatimLoop, bind_assoc])

theorem fills_rice : Fills (decodeRicePartition : List I32 → Dec (Bitstream σ) _) := by
  intro b₁ b₂ hl hlt
  unfold decodeRicePartition
  refine Agree.same (fun p => ?_)
  refine Agree.ite (fun _ => Agree.fail _) (fun _ => ?_)
  exact Agree.ite (fun _ => fills_small _ _ _ hl hlt) (fun _ => fills_large _ _ _ hl hlt)

theorem fills_rice2 : Fills (decodeRice2Partition : List I32 → Dec (Bitstream σ) _) := by
  intro b₁ b₂ hl hlt
  unfold decodeRice2Partition
  refine Agree.same (fun p => ?_)
  exact Agree.ite (fun _ => Agree.fail _) (fun _ => fills_rice2Loop _ _ _ hl hlt)

theorem fills_verbatim (bps : Nat) : Fills (decodeVerbatim bps : List I32 → Dec (Bitstream σ) _) := by
  intro b₁ b₂ hl hlt
  unfold decodeVerbatim
  exact Agree.same (fun _ => fills_verbatimLoop _ _ _ hl hlt)

theorem map_const_eq {b₁ b₂ : List I32} (h : b₁.length = b₂.length) (s : I32) :
    (b₁.map fun _ => s) = b₂.map fun _ => s := by
  rw [List.map_const', List.map_const', h]

theorem fills_constant (bps : Nat) : Fills (decodeConstant bps : List I32 → Dec (Bitstream σ) _) := by
  intro b₁ b₂ hl hlt
  unfold decodeConstant
  refine Agree.same (fun u => Agree.same (fun s => ?_))
  exact Agree.pure (by simp) (by simp [hl]) (by rw [map_const_eq hl])

theorem agree_partitionLoop (t : RicePartitionType) {nspp : Nat} (hn : nspp < 2 ^ 16) {L : Nat} :
    ∀ (n start len : Nat) (b₁ b₂ : List I32), len < 2 ^ 16 → b₁.length = L → b₂.length = L →
      b₁.take start = b₂.take start →
      Agree L (start + (sizesFrom nspp n len).sum) (partitionLoop t nspp n start len b₁ : Dec (Bitstream σ) _)
        (partitionLoop t nspp n start len b₂)
  | 0, start, len, b₁, b₂, _, h₁, h₂, h => Agree.pure h₁ h₂ (by simpa [sizesFrom] using h)
  | n + 1, start, len, b₁, b₂, hlen, h₁, h₂, h => by
    unfold partitionLoop
    have hf : Fills (match t with
       | .rice => decodeRicePartition
       | .rice2 => decodeRice2Partition : List I32 → Dec (Bitstream σ) _) := by
      cases t
      · exact fills_rice
      · exact fills_rice2
    refine Agree.bind (Agree.withSlice hf (by omega) h₁ h₂ h) ?_
    intro a b ha hb hab
    have := agree_partitionLoop t hn n (start + len) nspp a b hn ha hb hab
    rw [sizesFrom, List.sum_cons, ← Nat.add_assoc]
    exact this

theorem fills_residual {bs : Nat} (hbs : bs < 2 ^ 16) :
    Fills (decodeResidual bs : List I32 → Dec (Bitstream σ) _) := by
  intro b₁ b₂ hl hlt
  unfold decodeResidual
  rw [← hl]
  refine Agree.same (fun code => Agree.same (fun t => Agree.same (fun ob => ?_)))
  simp only
  by_cases hpo : ob.toNat < 16
  · have hpow : 2 ^ ob.toNat ≤ 2 ^ 15 := Nat.pow_le_pow_right (by omega) (by omega)
    have e1 : (if ob.toNat < 32 then pure (2 ^ ob.toNat) else orPanic .shift (2 ^ (ob.toNat % 32)) : Res Nat) =
      .ok (2 ^ ob.toNat) := if_pos (by omega)
    have e2 : (if ob.toNat < 16 then pure (bs >>> ob.toNat) else orPanic .shift (bs >>> (ob.toNat % 16)) : Res Nat) =
      .ok (bs >>> ob.toNat) := if_pos hpo
    rw [e1, e2]
    show Agree _ _ (if _ then _ else _) (if _ then _ else _)
    rw [and_mask _ _ (by omega), Nat.shiftRight_eq_div_pow]
    refine Agree.ite (fun _ => Agree.fail _) (fun hdiv => ?_)
    have hdiv : bs % 2 ^ ob.toNat = 0 := by simpa using hdiv
    refine Agree.same (fun prod => Agree.same (fun _ => ?_))
    rw [Nat.mod_eq_of_lt hlt]
    by_cases hw : b₁.length ≤ bs
    · rw [subU_ok hw]
      show Agree _ _ (if _ then _ else _) (if _ then _ else _)
      refine Agree.ite (fun _ => Agree.fail _) (fun hfirst => ?_)
      have hfirst : bs - b₁.length ≤ bs / 2 ^ ob.toNat := by omega
      rw [subU_ok hfirst]
      have hq : bs / 2 ^ ob.toNat ≤ bs := Nat.div_le_self _ _
      have := agree_partitionLoop (σ := σ) t (nspp := bs / 2 ^ ob.toNat) (by omega) (2 ^ ob.toNat) 0
        (bs / 2 ^ ob.toNat - (bs - b₁.length)) b₁ b₂ (by omega) rfl hl.symm rfl
      rw [← partitionSizes_eq, partitionSizes_sum hdiv hfirst,
        show 0 + (bs - (bs - b₁.length)) = b₁.length by omega] at this
      exact this
    · rw [show subU 16 bs b₁.length = panicRes .overflow from if_neg hw]
      exact Agree.fail _
  · have e1 : (if ob.toNat < 16 then pure (bs >>> ob.toNat) else orPanic .shift (bs >>> (ob.toNat % 16)) : Res Nat) =
      panicRes .shift := if_neg hpo
    rw [e1]
    exact Agree.same (fun _ => Agree.fail _)

end

/-! ### Prediction keeps the length -/

theorem setIndex_length {xs ys : List α} {i : Nat} {v : α} (h : setIndex xs i v = .ok ys) :
    ys.length = xs.length := by
  unfold setIndex at h
  split at h
  · cases h; simp
  · cases h

theorem res_bind {β : Type} {r : Res α} {f : α → Res β} {b : β} (h : (r >>= f) = .ok b) :
    ∃ a, r = .ok a ∧ f a = .ok b := by
  cases r with
  | error e => cases h
  | ok a => exact ⟨a, rfl, h⟩

theorem length_predictFixedLoop (cs : List I32) (w : Nat) : ∀ (n i : Nat) (buffer out : List I32),
    predictFixedLoop cs w n i buffer = .ok out → out.length = buffer.length
  | 0, _, _, _, h => by cases h; rfl
  | n + 1, i, buffer, out, h => by
    unfold predictFixedLoop at h
    obtain ⟨a, -, h⟩ := res_bind h
    obtain ⟨b, -, h⟩ := res_bind h
    obtain ⟨c, hc, h⟩ := res_bind h
    rw [length_predictFixedLoop cs w n (i + 1) c out h, setIndex_length hc]

theorem length_predictFixed {order : Nat} {buffer out : List I32}
    (h : predictFixed order buffer = .ok out) : out.length = buffer.length := by
  unfold predictFixed at h
  obtain ⟨a, -, h⟩ := res_bind h
  obtain ⟨b, -, h⟩ := res_bind h
  obtain ⟨c, -, h⟩ := res_bind h
  exact length_predictFixedLoop _ _ _ _ _ _ h

theorem length_lpcLoop (cs : List I64) (q : I16) (k : Nat) : ∀ (n i : Nat) (buffer out : List I32),
    lpcLoop cs q k n i buffer = .ok out → out.length = buffer.length
  | 0, _, _, _, h => by cases h; rfl
  | n + 1, i, buffer, out, h => by
    unfold lpcLoop at h
    obtain ⟨a, -, h⟩ := res_bind h
    obtain ⟨b, -, h⟩ := res_bind h
    obtain ⟨c, -, h⟩ := res_bind h
    obtain ⟨d, -, h⟩ := res_bind h
    obtain ⟨e, he, h⟩ := res_bind h
    rw [length_lpcLoop cs q k n (i + 1) e out h, setIndex_length he]

theorem length_lowOrder {raw : List I16} {q : I16} {buffer out : List I32}
    (h : predictLpcLowOrder raw q buffer = .ok out) : out.length = buffer.length := by
  unfold predictLpcLowOrder at h
  obtain ⟨_, -, h⟩ := res_bind h
  obtain ⟨_, -, h⟩ := res_bind h
  obtain ⟨_, -, h⟩ := res_bind h
  obtain ⟨_, -, h⟩ := res_bind h
  obtain ⟨_, -, h⟩ := res_bind h
  obtain ⟨b, hb, h⟩ := res_bind h
  split at h
  · cases h; exact length_lpcLoop _ _ _ _ _ _ _ hb
  · rw [length_lpcLoop _ _ _ _ _ _ _ h, length_lpcLoop _ _ _ _ _ _ _ hb]

theorem length_highOrder {raw : List I16} {q : I16} {buffer out : List I32}
    (h : predictLpcHighOrder raw q buffer = .ok out) : out.length = buffer.length := by
  unfold predictLpcHighOrder at h
  obtain ⟨_, -, h⟩ := res_bind h
  obtain ⟨_, -, h⟩ := res_bind h
  obtain ⟨_, -, h⟩ := res_bind h
  obtain ⟨_, -, h⟩ := res_bind h
  exact length_lpcLoop _ _ _ _ _ _ _ h

theorem Agree.lift {L n : Nat} {r : Res (List I32)} (h : ∀ a, r = .ok a → a.length = L) :
    Agree L n (liftM r : Dec σ (List I32)) (liftM r) := by
  intro s
  cases r with
  | error e => exact .fail e s
  | ok a => exact .ok s (h a rfl) (h a rfl) rfl

section

variable [ReadBytes σ]

theorem fills_fixed (bps order : Nat) : Fills (decodeFixed bps order : List I32 → Dec (Bitstream σ) _) := by
  intro b₁ b₂ hl hlt
  unfold decodeFixed
  rw [← hl]
  refine Agree.ite (fun _ => Agree.fail _) (fun ho => ?_)
  refine Agree.bind (Agree.withSlice (L := b₁.length) (fills_verbatim _) (by omega) rfl hl.symm rfl) ?_
  intro a b ha hb hab
  rw [ha, hb]
  refine Agree.bind (Agree.withSlice (L := b₁.length) (fills_residual (Nat.mod_lt _ (by omega))) (by omega)
    ha hb hab) ?_
  intro c d hc hd hcd
  obtain rfl := Agree.of_eq hc hd hcd
  refine Agree.lift (fun x hx => ?_)
  rw [length_predictFixed hx, hc]

theorem fills_lpc (bps order : Nat) : Fills (decodeLpc bps order : List I32 → Dec (Bitstream σ) _) := by
  intro b₁ b₂ hl hlt
  unfold decodeLpc
  rw [← hl]
  refine Agree.same (fun _ => ?_)
  refine Agree.ite (fun _ => Agree.fail _) (fun ho => ?_)
  refine Agree.bind (Agree.withSlice (L := b₁.length) (fills_verbatim _) (by omega) rfl hl.symm rfl) ?_
  intro a b ha hb hab
  refine Agree.same (fun p => ?_)
  refine Agree.ite (fun _ => Agree.fail _) (fun _ => ?_)
  refine Agree.same (fun u => Agree.same (fun q => ?_))
  refine Agree.ite (fun _ => Agree.fail _) (fun _ => ?_)
  refine Agree.same (fun arr => ?_)
  rw [ha, hb]
  refine Agree.bind (Agree.withSlice (L := b₁.length) (fills_residual (Nat.mod_lt _ (by omega))) (by omega)
    ha hb hab) ?_
  intro c d hc hd hcd
  obtain rfl := Agree.of_eq hc hd hcd
  refine Agree.same (fun cs => ?_)
  refine Agree.ite (fun _ => Agree.lift (fun x hx => ?_)) (fun _ => Agree.lift (fun x hx => ?_))
  · rw [length_lowOrder hx, hc]
  · rw [length_highOrder hx, hc]

theorem fills_subframe (bps : Nat) : Fills (decodeSubframe bps : List I32 → Dec (Bitstream σ) _) := by
  intro b₁ b₂ hl hlt
  unfold decodeSubframe
  refine Agree.same (fun _ => Agree.same (fun h => ?_))
  refine Agree.ite (fun _ => Agree.fail _) (fun _ => ?_)
  simp only
  have hbody : Agree b₁.length b₁.length
      (match h.sfType with
       | .constant => decodeConstant (bps - h.wastedBitsPerSample) b₁
       | .verbatim => decodeVerbatim (bps - h.wastedBitsPerSample) b₁
       | .fixed ord => decodeFixed (bps - h.wastedBitsPerSample) ord b₁
       | .lpc ord => decodeLpc (bps - h.wastedBitsPerSample) ord b₁ : Dec (Bitstream σ) _)
      (match h.sfType with
       | .constant => decodeConstant (bps - h.wastedBitsPerSample) b₂
       | .verbatim => decodeVerbatim (bps - h.wastedBitsPerSample) b₂
       | .fixed ord => decodeFixed (bps - h.wastedBitsPerSample) ord b₂
       | .lpc ord => decodeLpc (bps - h.wastedBitsPerSample) ord b₂) := by
    cases h.sfType with
    | constant => exact fills_constant _ _ _ hl hlt
    | verbatim => exact fills_verbatim _ _ _ hl hlt
    | fixed n => exact fills_fixed _ _ _ _ hl hlt
    | lpc n => exact fills_lpc _ _ _ _ hl hlt
  refine Agree.bind hbody ?_
  intro a b ha hb hab
  obtain rfl := Agree.of_eq ha hb hab
  refine Agree.ite (fun _ => Agree.same (fun _ => ?_)) (fun _ => ?_)
  · exact Agree.pure (by simp [ha]) (by simp [ha]) rfl
  · exact Agree.pure ha ha rfl

theorem agree_independent (bps : Nat) {bs : Nat} (hbs : bs < 2 ^ 16) {L : Nat} : ∀ (n ch : Nat) (b₁ b₂ : List I32),
    b₁.length = L → b₂.length = L → b₁.take (ch * bs) = b₂.take (ch * bs) →
    Agree L ((ch + n) * bs) (decodeIndependent bps bs n ch b₁ : Dec (Bitstream σ) _)
      (decodeIndependent bps bs n ch b₂)
  | 0, ch, b₁, b₂, h₁, h₂, h => Agree.pure h₁ h₂ h
  | n + 1, ch, b₁, b₂, h₁, h₂, h => by
    unfold decodeIndependent
    refine Agree.bind (Agree.withSlice (L := L) (fills_subframe _) ?_ h₁ h₂ h) ?_
    · rw [Nat.add_mul]; omega
    · intro a b ha hb hab
      have := agree_independent bps hbs n (ch + 1) a b ha hb hab
      rwa [show ch + 1 + n = ch + (n + 1) by omega] at this

theorem stereo_eq {bs : Nat} (hbs : bs < 2 ^ 16) {b₁ b₂ : List I32} (h₁ : b₁.length = 2 * bs)
    (h₂ : b₂.length = 2 * bs) (bps bps' : Nat) (f : List I32 → Dec (Bitstream σ) (List I32)) :
    (do let b ← withSlice b₁ 0 bs (decodeSubframe bps)
        let b ← withSlice b bs (bs * 2) (decodeSubframe bps')
        f b) =
    (do let b ← withSlice b₂ 0 bs (decodeSubframe bps)
        let b ← withSlice b bs (bs * 2) (decodeSubframe bps')
        f b) := by
  rw [← bind_assoc, ← bind_assoc]
  refine congrArg (· >>= f) (Agree.eq (L := bs * 2) ?_)
  refine Agree.bind (Agree.withSlice (L := bs * 2) (fills_subframe _) (by omega) (by omega) (by omega) rfl) ?_
  intro a b ha hb hab
  exact Agree.withSlice (L := bs * 2) (fills_subframe _) (by omega) ha hb hab

/-- Decoding the channels of a frame overwrites everything. -/
theorem decodeChannels_eq (h : FrameHeader) (bps : Nat) {bs : Nat} (hbs : bs < 2 ^ 16)
    {b₁ b₂ : List I32} (h₁ : b₁.length = h.channels * bs) (h₂ : b₂.length = h.channels * bs) :
    (decodeChannels h.channelAssignment bps bs b₁ : Dec (Bitstream σ) _) =
      decodeChannels h.channelAssignment bps bs b₂ := by
  unfold FrameHeader.channels at h₁ h₂
  cases hca : h.channelAssignment with
  | independent n =>
    rw [hca] at h₁ h₂
    apply Agree.eq (L := n * bs)
    have := agree_independent (σ := σ) bps hbs n 0 b₁ b₂ h₁ h₂ (by simp)
    rwa [Nat.zero_add] at this
  | leftSideStereo => rw [hca] at h₁ h₂; exact stereo_eq hbs h₁ h₂ _ _ _
  | rightSideStereo => rw [hca] at h₁ h₂; exact stereo_eq hbs h₁ h₂ _ _ _
  | midSideStereo => rw [hca] at h₁ h₂; exact stereo_eq hbs h₁ h₂ _ _ _

theorem ensureBufferLen_length (buffer : VecI32) (n : Nat) :
    (ensureBufferLen buffer n).data.length = n := by
  unfold ensureBufferLen VecI32.len
  split
  · split
    · simp
    · simp; omega
  · simp; omega

/-- The body of a frame: everything but the capacity of the buffer is the same. -/
theorem readFrameBody_indep [FuzzCfg] {h : FrameHeader} (hh : h.Bounded) (b₁ b₂ : VecI32) (s : Crc16Reader σ) :
    (readFrameBody h b₁ s).2 = (readFrameBody h b₂ s).2 ∧
      ((readFrameBody h b₁ s).1.map (Option.map Block.contents)) =
        ((readFrameBody h b₂ s).1.map (Option.map Block.contents)) := by
  unfold readFrameBody
  simp only
  cases h.bitsPerSample with
  | none => exact ⟨rfl, rfl⟩
  | some bps =>
    simp only
    rw [decodeChannels_eq h bps hh.blockSize.2 (ensureBufferLen_length b₁ _) (ensureBufferLen_length b₂ _)]
    generalize (ensureBufferLen b₁ (h.channels * h.blockSize)).cap = c₁
    generalize (ensureBufferLen b₂ (h.channels * h.blockSize)).cap = c₂
    have key : ∀ {γ : Type} (m : Dec (Crc16Reader σ) γ) (f g : γ → Dec (Crc16Reader σ) (Option Block)) s,
        (∀ a s, (f a s).2 = (g a s).2 ∧ (f a s).1.map (Option.map Block.contents) =
          (g a s).1.map (Option.map Block.contents)) →
        ((m >>= f) s).2 = ((m >>= g) s).2 ∧ ((m >>= f) s).1.map (Option.map Block.contents) =
          ((m >>= g) s).1.map (Option.map Block.contents) := by
      intro γ m f g s hfg
      rw [Dec.bind_def, Dec.bind_def]
      generalize m s = x
      rcases x with ⟨e | a, s'⟩
      · exact ⟨rfl, rfl⟩
      · exact hfg a s'
    refine key _ _ _ _ (fun _ s => key _ _ _ _ (fun data s => key _ _ _ _ (fun c s => key _ _ _ _ (fun p s => ?_))))
    by_cases hc : FuzzCfg.fuzzing = false ∧ c.crc ≠ p
    · rw [if_pos hc, if_pos hc]; exact ⟨rfl, rfl⟩
    · rw [if_neg hc, if_neg hc]
      refine key _ _ _ _ (fun t s => ?_)
      have hbs : h.blockSize ≠ 0 := by have := hh.blockSize; omega
      unfold Block.new VecI32.len
      simp only
      rw [if_neg hbs, if_neg hbs]
      exact ⟨rfl, rfl⟩

/-- The outcome of reading a frame does not depend on the buffer. -/
theorem readNextOrEof_indep [FuzzCfg] (b₁ b₂ : VecI32) (s : σ) :
    (readNextOrEof b₁ s).2 = (readNextOrEof b₂ s).2 ∧
      (readNextOrEof b₁ s).1.map (Option.map Block.contents) =
        (readNextOrEof b₂ s).1.map (Option.map Block.contents) := by
  unfold readNextOrEof withCrc16
  simp only [Dec.bind_def]
  rcases hx : (readFrameHeaderOrEof (Crc16Reader.new s)) with ⟨e | _ | h, s'⟩
  · exact ⟨rfl, rfl⟩
  · exact ⟨rfl, rfl⟩
  · have hh := post_header _ _ _ hx h rfl
    obtain ⟨h1, h2⟩ := readFrameBody_indep hh b₁ b₂ s'
    exact ⟨congrArg Crc16Reader.inner h1, h2⟩

end

end Claxon
