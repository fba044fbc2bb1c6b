import Verif.Proof.Refused

/-! Errors of the frame reader and their reasons: the bytes. -/

namespace Claxon

open Spec ReadBytes

variable {α β : Type}

/-- If `m` fails with an error, it is one of the source, or the unread bytes begin with bytes that are refused. -/
def BRefuses (m : Dec Flat α) (Q : List U8 → Error → Prop) : Prop :=
  ∀ (s : Flat) e s', m s = (.error (.err e), s') → FromSource s.fault e ∨ ∃ used rest, s.bytes = used ++ rest ∧ Q used e

namespace BRefuses

variable {Q : List U8 → Error → Prop}

theorem pure (a : α) : BRefuses (Pure.pure a) Q := by
  intro s e s' h
  cases h

theorem fail {e : Error} (h : Q [] e) : BRefuses (Dec.fail (.err e) : Dec Flat α) Q := by
  intro s e' s' he
  cases he
  exact .inr ⟨[], s.bytes, rfl, h⟩

theorem lift {r : Res α} {a : α} (h : r = .ok a) : BRefuses (liftM r) Q := by
  subst h; exact pure a

theorem bind {lim : Limit} {m : Dec Flat α} {f : α → Dec Flat β} {P : List U8 → α → Prop}
    (hm : BRefuses m Q) (ht : BTriple lim m P) (hf : ∀ u a, P u a → BRefuses (f a) (fun v e => Q (u ++ v) e)) :
    BRefuses (m >>= f) Q := by
  intro s e s' h
  have h1 := ht s
  have h2 := hm s
  rw [Dec.bind_def] at h
  generalize m s = x at h h1 h2
  rcases x with ⟨r, s1⟩
  cases r with
  | error e1 =>
    simp only [Prod.mk.injEq, Except.error.injEq] at h
    obtain ⟨rfl, rfl⟩ := h
    exact h2 e s1 rfl
  | ok a =>
    obtain ⟨hf1, u, hu, hP⟩ := h1
    rcases hf u a hP s1 e s' h with h3 | ⟨v, rest, hv, hQ⟩
    · exact .inl (hf1 ▸ h3)
    · exact .inr ⟨u ++ v, rest, by rw [hu, hv, List.append_assoc], hQ⟩

theorem bind_lift {r : Res α} {f : α → Dec Flat β} {a : α} (h : r = .ok a) (hf : BRefuses (f a) Q) :
    BRefuses (liftM r >>= f) Q := by
  subst h; exact hf

/-- The first part fails. -/
theorem bind_fail {f : α → Dec Flat β} {e : Error} (h : Q [] e) :
    BRefuses ((Dec.fail (.err e) : Dec Flat α) >>= f) Q := by
  intro s e' s' he
  cases he
  exact .inr ⟨[], s.bytes, rfl, h⟩

theorem mono {m : Dec Flat α} {Q' : List U8 → Error → Prop} (hm : BRefuses m Q)
    (h : ∀ u e, Q u e → Q' u e) : BRefuses m Q' := by
  intro s e s' he
  rcases hm s e s' he with h1 | ⟨u, rest, h1, h2⟩
  · exact .inl h1
  · exact .inr ⟨u, rest, h1, h u e h2⟩

theorem ite {c : Prop} [Decidable c] {m n : Dec Flat α} (h1 : c → BRefuses m Q) (h2 : ¬ c → BRefuses n Q) :
    BRefuses (if c then m else n) Q := by
  split
  · next h => exact h1 h
  · next h => exact h2 h

/-- From bits to bytes. -/
theorem withBitstream {m : Dec (Bitstream Flat) α} {Q : List Bool → Error → Prop} (h : Refuses m Q) :
    BRefuses (withBitstream m) (fun bytes e => ∃ used more, bytesToBits bytes = used ++ more ∧ more.length < 8 ∧
      Q used e) := by
  intro s e s' he
  have h1 := h (Bitstream.new s) (Bitstream.inv_new s)
  unfold Claxon.withBitstream at he
  generalize m (Bitstream.new s) = x at he h1
  rcases x with ⟨r, b'⟩
  simp only [Prod.mk.injEq] at he
  obtain ⟨rfl, rfl⟩ := he
  rcases h1 e b' rfl with h2 | ⟨used, rest, h2, h3⟩
  · exact .inl h2
  right
  rw [Bitstream.bits_new] at h2
  have hlen : 8 * s.bytes.length = used.length + rest.length := by
    have := congrArg List.length h2
    rwa [length_bytesToBits, List.length_append] at this
  -- the bytes up to the end of the bits that have been used
  obtain ⟨n, hn1, hn2⟩ : ∃ n, used.length ≤ 8 * n ∧ 8 * n < used.length + 8 := ⟨(used.length + 7) / 8, by omega, by omega⟩
  have hn3 : n ≤ s.bytes.length := by omega
  refine ⟨s.bytes.take n, s.bytes.drop n, by simp, used, rest.take (8 * n - used.length), ?_, ?_, h3⟩
  · have e1 : bytesToBits (s.bytes.take n) = (bytesToBits s.bytes).take (8 * n) := by
      conv_rhs => rw [← List.take_append_drop n s.bytes, bytesToBits_append]
      rw [List.take_left' (by rw [length_bytesToBits, List.length_take, Nat.min_eq_left hn3])]
    rw [e1, h2, List.take_append, List.take_of_length_le hn1]
  · rw [List.length_take]; omega

end BRefuses

theorem BTriple.of_pure {lim : Limit} {a : α} {P : List U8 → α → Prop} (h : BTriple lim (Pure.pure a) P) : P [] a := by
  obtain ⟨_, u, hu, hP⟩ := h ⟨[], none⟩
  have hu : [] = u ++ [] := hu
  rw [List.append_nil] at hu
  exact hu ▸ hP

section
variable {Q : List U8 → Error → Prop}

theorem brefuses_readU8 : BRefuses (readU8 : Dec Flat U8) Q := by
  rintro ⟨bs, f⟩ e s' h
  cases bs with
  | nil =>
    cases f <;> cases h
    · exact .inl rfl
    · exact .inl rfl
  | cons b bs => cases h

theorem brefuses_readBeU16 : BRefuses (readBeU16 : Dec Flat U16) Q :=
  .bind (lim := .never) brefuses_readU8 btriple_readU8 fun _ _ _ =>
    .bind (lim := .never) brefuses_readU8 btriple_readU8 fun _ _ _ => .pure _

end

/-! ### Coded numbers -/

theorem not_continuation (b : U8) : b &&& 0b1100_0000#8 ≠ 0b1000_0000#8 ↔ b.toNat / 64 ≠ 0b10 := by
  revert b
  decide +kernel

theorem brefuses_varLengthLoop : ∀ (i : Nat), i ≤ 7 → ∀ (r : U64) (w : Nat),
    r.toNat = w * 64 ^ i → (w + 1) * 64 ^ i ≤ 2 ^ 64 →
    BRefuses (varLengthLoop i r) (fun u e => ∃ k x b, k < i ∧ x < 64 ^ i ∧ b.toNat / 64 ≠ 0b10 ∧
      u = (continuationBytes i x).take k ++ [b] ∧ e = .formatError "invalid variable-length integer") := by
  intro i
  induction i with
  | zero => intro _ r w _ _; exact .pure _
  | succ i ih =>
    intro hi r w hr hlt
    simp only [varLengthLoop]
    refine .bind (lim := .never) brefuses_readU8 btriple_readU8 ?_
    rintro _ b rfl
    obtain ⟨hc1, hc2⟩ := continuation_byte b
    refine .ite (fun hb => .fail ?_) (fun hb => ?_)
    · exact ⟨0, 0, b, by omega, Nat.pow_pos (by omega), (not_continuation b).1 hb, by simp, rfl⟩
    · rw [not_not] at hb
      refine .bind_lift (shl_ok (by omega)) ?_
      have hd : (b &&& 63#8).toNat < 64 := by rw [hc2]; omega
      have hstep := varint_step (by omega : i ≤ 6) hr hd rfl
      refine (ih (by omega) _ _ hstep ?_).mono ?_
      · refine Nat.le_trans ?_ hlt
        rw [Nat.pow_succ, Nat.mul_comm (64 ^ i), ← Nat.mul_assoc]
        exact Nat.mul_le_mul_right _ (by omega)
      · rintro _ _ ⟨k, x, b', hk, hx, hb', rfl, rfl⟩
        refine ⟨k + 1, (b &&& 63#8).toNat * 64 ^ i + x, b', by omega, ?_, hb', ?_, rfl⟩
        · rw [Nat.pow_succ]
          calc _ < (b &&& 63#8).toNat * 64 ^ i + 64 ^ i := by omega
            _ = ((b &&& 63#8).toNat + 1) * 64 ^ i := by ring
            _ ≤ 64 * 64 ^ i := Nat.mul_le_mul_right _ hd
            _ = _ := by ring
        · simp only [continuationBytes]
          rw [continuationBytes_add]
          have e : ((b &&& 63#8).toNat * 64 ^ i + x) / 64 ^ i % 64 = (b &&& 63#8).toNat := by
            rw [Nat.mul_comm, Nat.mul_add_div (Nat.pow_pos (by omega)), Nat.div_eq_of_lt hx]
            omega
          rw [e, ← hc1.1 hb]
          simp

theorem brefuses_readVarLengthInt : BRefuses (readVarLengthInt : Dec Flat U64)
    (fun u e => BadNumber u ∧ e = .formatError "invalid variable-length integer") := by
  unfold readVarLengthInt
  refine .bind (lim := .never) brefuses_readU8 btriple_readU8 ?_
  rintro _ b rfl
  have hspec := leadingOnes_spec b
  generalize leadingOnesLoop b 8 0 127#8 128#8 = p at hspec ⊢
  rcases p with ⟨ones, mask⟩
  simp only at hspec ⊢
  by_cases h1 : ones = 1
  · rw [if_pos h1]
    refine .fail ⟨.first b ?_, rfl⟩
    rcases hspec with ⟨h, _⟩ | ⟨_, _, _⟩ | ⟨h, _⟩ <;> omega
  rw [if_neg h1]
  have key : ones - 1 ≤ 7 ∧
      (b &&& mask).toNat < (if ones - 1 = 0 then 128 else 2 ^ (6 - (ones - 1))) ∧
      b.toNat = (if ones - 1 = 0 then 0 else 256 - 2 ^ (7 - (ones - 1))) + (b &&& mask).toNat := by
    rcases hspec with ⟨h1, h2, h3⟩ | ⟨h1, _, _⟩ | ⟨h1, h2, h3, h4⟩
    · subst h1; rw [h3]; simp; omega
    · omega
    · generalize (b &&& mask).toNat = m at h3 h4 ⊢
      interval_cases ones <;> norm_num at h3 h4 ⊢ <;> omega
  obtain ⟨k1, k2, k3⟩ := key
  generalize ones - 1 = n at k1 k2 k3 ⊢
  refine .bind_lift (shl_ok (by omega)) ?_
  have h64 : ((b &&& mask).toNat + 1) * 64 ^ n ≤ 2 ^ 42 := by
    generalize (b &&& mask).toNat = m at k2 ⊢
    interval_cases n <;> norm_num at k2 ⊢ <;> omega
  have hr : ((b &&& mask).setWidth 64 <<< (6 * n) : U64).toNat = (b &&& mask).toNat * 64 ^ n := by
    have hm := (b &&& mask).isLt
    rw [BitVec.toNat_shiftLeft, BitVec.toNat_setWidth, Nat.shiftLeft_eq, ← pow64,
      Nat.mod_eq_of_lt (a := (b &&& mask).toNat) (by omega)]
    apply Nat.mod_eq_of_lt
    rw [Nat.add_mul] at h64
    omega
  refine (brefuses_varLengthLoop n k1 _ _ hr (Nat.le_trans h64 (by norm_num))).mono ?_
  rintro _ _ ⟨k, x, b', hk, hx, hb', rfl, rfl⟩
  refine ⟨?_, rfl⟩
  have hdiv : ((b &&& mask).toNat * 64 ^ n + x) / 64 ^ n = (b &&& mask).toNat := by
    rw [Nat.mul_comm, Nat.mul_add_div (Nat.pow_pos (by omega)), Nat.div_eq_of_lt hx]
    omega
  have h := BadNumber.continuation n ((b &&& mask).toNat * 64 ^ n + x) k
    (codedNumber_accepted k1 (by rw [hdiv]; exact k2)) hk b' hb'
  refine cast (congrArg BadNumber ?_) h
  unfold codedNumber
  rw [hdiv, ← k3, continuationBytes_add]
  simp

theorem brefuses_blockTime (v : Bool) : BRefuses (readBlockTime v) (fun u e =>
    BadNumber u ∧ e = .formatError "invalid variable-length integer" ∨
    ∃ n x, CodedNumberAccepted n x ∧ v = false ∧ 2 ^ 31 ≤ x ∧ u = codedNumber n x ∧
      e = .formatError "invalid frame header, frame number too large") := by
  cases v with
  | true =>
    refine .bind (brefuses_readVarLengthInt.mono fun _ _ h => .inl h) btriple_readVarLengthInt ?_
    rintro _ a _
    exact .pure _
  | false =>
    refine .bind (brefuses_readVarLengthInt.mono fun _ _ h => .inl h) btriple_readVarLengthInt ?_
    rintro _ a ⟨n, h1, rfl⟩
    refine .ite (fun h => .fail (.inr ⟨n, _, h1, rfl, by omega, by simp, rfl⟩)) (fun _ => .pure _)

/-! ### The header -/

theorem blockSizeCode_exact {n : Nat} (hn : n < 16) :
    (n = 0 ∧ (blockSizeCode n : Dec Flat _) = fmtErr "invalid frame header, encountered reserved value") ∨
    (n ≠ 0 ∧ ∃ c, (blockSizeCode n : Dec Flat _) = pure c ∧
      BTriple .never (readBlockSize c) (fun v size => ∃ f : BlockSizeField,
        f.code = n ∧ f.extra = v ∧ f.size = size) ∧
      BRefuses (readBlockSize c) (fun u e => n = 7 ∧ u = [0xff#8, 0xff#8] ∧
        e = .formatError "invalid block size, exceeds 65535")) := by
  have h := btriple_blockSizeCode hn
  have hk : ∀ k, (blockSizeCode n : Dec Flat _) = pure (.known k) → n ≠ 0 → 
    (n = 0 ∧ (blockSizeCode n : Dec Flat _) = fmtErr "invalid frame header, encountered reserved value") ∨
    (n ≠ 0 ∧ ∃ c, (blockSizeCode n : Dec Flat _) = pure c ∧
      BTriple .never (readBlockSize c) (fun v size => ∃ f : BlockSizeField,
        f.code = n ∧ f.extra = v ∧ f.size = size) ∧
      BRefuses (readBlockSize c) (fun u e => n = 7 ∧ u = [0xff#8, 0xff#8] ∧
        e = .formatError "invalid block size, exceeds 65535")) := by
    intro k hk hn0
    refine .inr ⟨hn0, _, hk, ?_, .pure _⟩
    rw [hk] at h
    exact h.of_pure.2
  by_cases h6 : n = 6
  · subst h6
    refine .inr ⟨by omega, .read8, rfl, (BTriple.of_pure (a := BlockSizeCode.read8) h).2, ?_⟩
    refine .bind (lim := .never) brefuses_readU8 btriple_readU8 ?_
    rintro _ b rfl
    exact .lift (addU_ok (by have := b.isLt; omega))
  by_cases h7 : n = 7
  · subst h7
    refine .inr ⟨by omega, .read16, rfl, (BTriple.of_pure (a := BlockSizeCode.read16) h).2, ?_⟩
    refine .bind (lim := .never) brefuses_readBeU16 btriple_beU16 ?_
    rintro _ b rfl
    refine .ite (fun hb => .fail ?_) (fun hb => ?_)
    · subst hb; exact ⟨rfl, rfl, rfl⟩
    · have hne : b.toNat ≠ 65535 := fun h' => hb (BitVec.eq_of_toNat_eq h')
      exact .lift (addU_ok (by have := b.isLt; omega))
  interval_cases n <;> first | exact .inl ⟨rfl, rfl⟩ | omega | exact hk _ rfl (by omega)

theorem sampleRateCode_exact {n : Nat} (hn : n < 16) :
    (n = 15 ∧ (sampleRateCode n : Dec Flat _) = fmtErr "invalid frame header") ∨
    (n ≠ 15 ∧ ∃ c, (sampleRateCode n : Dec Flat _) = pure c ∧
      BTriple .never (readSampleRate c) (fun v rate => ∃ f : SampleRateField,
        f.code = n ∧ f.extra = v ∧ rateOf f = rate) ∧ ∀ Q, BRefuses (readSampleRate c) Q) := by
  have h := btriple_sampleRateCode hn
  have hr : ∀ c Q, BRefuses (readSampleRate c : Dec Flat _) Q := by
    intro c Q
    cases c with
    | known => exact .pure _
    | read8 => exact .bind (lim := .never) brefuses_readU8 btriple_readU8 fun _ _ _ => .pure _
    | read16 => exact .bind (lim := .never) brefuses_readBeU16 btriple_beU16 fun _ _ _ => .pure _
    | read16Ten =>
      refine .bind (lim := .never) brefuses_readBeU16 btriple_beU16 ?_
      rintro _ b rfl
      exact .bind_lift (mulU_ok (by have := b.isLt; omega)) (.pure _)
  have hk : ∀ c, (sampleRateCode n : Dec Flat _) = pure c → BTriple .never (readSampleRate c) (fun v rate =>
      ∃ f : SampleRateField, f.code = n ∧ f.extra = v ∧ rateOf f = rate) := by
    intro c hc
    rw [hc] at h
    exact h.of_pure.2
  interval_cases n <;> first | exact .inl ⟨rfl, rfl⟩ | exact .inr ⟨by omega, _, rfl, hk _ rfl, hr _⟩

theorem channelAssignmentCode_exact {n : Nat} (hn : n < 16) :
    (11 ≤ n ∧ (channelAssignmentCode n : Dec Flat _) =
      fmtErr "invalid frame header, encountered reserved value") ∨
    (n < 11 ∧ ∃ f : ChannelField, f.code = n ∧ (channelAssignmentCode n : Dec Flat _) = pure (caOf f)) := by
  rcases Nat.lt_or_ge n 8 with h | h
  · exact .inr ⟨by omega, .independent ⟨n, h⟩, rfl, channelAssignmentCode_code (.independent ⟨n, h⟩)⟩
  rcases Nat.lt_or_ge n 11 with h' | h'
  · obtain rfl | rfl | rfl : n = 8 ∨ n = 9 ∨ n = 10 := by omega
    · exact .inr ⟨by omega, .leftSide, rfl, rfl⟩
    · exact .inr ⟨by omega, .rightSide, rfl, rfl⟩
    · exact .inr ⟨by omega, .midSide, rfl, rfl⟩
  · left
    unfold channelAssignmentCode
    rw [if_neg (by omega), if_neg (by omega), if_neg (by omega), if_neg (by omega)]
    exact ⟨h', rfl⟩

theorem bitsPerSampleCode_exact {n : Nat} (hn : n < 8) :
    ((n = 3 ∨ n = 7) ∧ (bitsPerSampleCode n : Dec Flat _) =
      fmtErr "invalid frame header, encountered reserved value") ∨
    (n ≠ 3 ∧ n ≠ 7 ∧ ∃ f : SampleSizeField, f.code = n ∧ (bitsPerSampleCode n : Dec Flat _) = pure f.bits) := by
  match n, hn with
  | 0, _ => exact .inr ⟨by decide, by decide, .streaminfo, rfl, rfl⟩
  | 1, _ => exact .inr ⟨by decide, by decide, .bits8, rfl, rfl⟩
  | 2, _ => exact .inr ⟨by decide, by decide, .bits12, rfl, rfl⟩
  | 3, _ => exact .inl ⟨by decide, rfl⟩
  | 4, _ => exact .inr ⟨by decide, by decide, .bits16, rfl, rfl⟩
  | 5, _ => exact .inr ⟨by decide, by decide, .bits20, rfl, rfl⟩
  | 6, _ => exact .inr ⟨by decide, by decide, .bits24, rfl, rfl⟩
  | 7, _ => exact .inl ⟨by decide, rfl⟩

/-- The codes in the first four bytes, of which the first one is 255. -/
def codesOf (b x y : U8) : HeaderCodes where
  reserved1 := b.toNat / 2 % 2 == 1
  variableBlockSize := b.toNat % 2 == 1
  blockSize := ⟨x.toNat / 16, by have := x.isLt; omega⟩
  sampleRate := ⟨x.toNat % 16, by omega⟩
  channels := ⟨y.toNat / 16, by have := y.isLt; omega⟩
  sampleSize := ⟨y.toNat / 2 % 8, by omega⟩
  reserved2 := y.toNat % 2 == 1

theorem codesOf_bytes {b : U8} (h : b.toNat / 4 = 0b111110) (x y : U8) :
    (codesOf b x y).bytes = [0xff#8, b, x, y] := by
  have e1 : BitVec.ofNat 8 (0xf8 + 2 * (b.toNat / 2 % 2 == 1).toNat + (b.toNat % 2 == 1).toNat) = b := by
    revert b; decide +kernel
  have e2 : BitVec.ofNat 8 (16 * (x.toNat / 16) + x.toNat % 16) = x := by
    rw [Nat.div_add_mod]; simp
  have e3 : BitVec.ofNat 8 (16 * (y.toNat / 16) + 2 * (y.toNat / 2 % 8) + (y.toNat % 2 == 1).toNat) = y := by
    revert y; decide +kernel
  simp only [HeaderCodes.bytes, codesOf, e1, e2, e3]

theorem sync_first {a b : U8} : ((a.setWidth 16 <<< 8 ||| b.setWidth 16 : U16) &&& 0b1111_1111_1111_1100#16 =
    0b1111_1111_1111_1000#16) ↔ a = 0xff#8 ∧ b.toNat / 4 = 0b111110 := by
  constructor
  · intro h
    obtain ⟨h1, h2⟩ := sync_bytes h
    exact ⟨BitVec.eq_of_toNat_eq h1, h2⟩
  · rintro ⟨rfl, h⟩
    revert b; decide +kernel

theorem sync_reserved (b : U8) : (((0xff#8 : U8).setWidth 16 <<< 8 ||| b.setWidth 16 : U16) &&&
    0b0000_0000_0000_0010#16 ≠ 0#16) ↔ (b.toNat / 2 % 2 == 1) = true := by
  revert b; decide +kernel

theorem sync_blocking (b : U8) : (!(((0xff#8 : U8).setWidth 16 <<< 8 ||| b.setWidth 16 : U16) &&& 1#16 == 0#16)) =
    (b.toNat % 2 == 1) := by
  revert b; decide +kernel

theorem brefuses_headerFields (a b : U8) :
    BRefuses (headerFields (a.setWidth 16 <<< 8 ||| b.setWidth 16)) (fun u e => RefusedHeader ([a, b] ++ u) e) := by
  unfold headerFields
  refine .ite (fun h => .fail (.sync a b fun h' => h (sync_first.2 h'))) (fun h => ?_)
  obtain ⟨rfl, hb⟩ := sync_first.1 (not_not.1 h)
  refine .ite (fun hres => .fail ?_) (fun hres => ?_)
  · have := RefusedHeader.reserved1 (codesOf b 0 0) ((sync_reserved b).1 hres)
    rwa [codesOf_bytes hb] at this
  have hres : (b.toNat / 2 % 2 == 1) = false := by
    rcases hx : (b.toNat / 2 % 2 == 1) with _ | _
    · rfl
    · exact absurd ((sync_reserved b).2 hx) hres
  rw [sync_blocking]
  refine .bind (lim := .never) brefuses_readU8 btriple_readU8 ?_
  rintro _ x rfl
  obtain ⟨p1, p2, _, _⟩ := split_byte x
  have hx := x.isLt
  rw [p1, p2]
  rcases blockSizeCode_exact (show x.toNat / 16 < 16 by omega) with ⟨hbs, he⟩ | ⟨hbs, bsc, he, hbt, hbr⟩
  · rw [he]
    refine .bind_fail ?_
    have := RefusedHeader.blockSize (codesOf b x 0) hres hbs
    rwa [codesOf_bytes hb] at this
  rw [he, pure_bind]
  rcases sampleRateCode_exact (show x.toNat % 16 < 16 by omega) with ⟨hsr, he⟩ | ⟨hsr, src, he, hst, hsrf⟩
  · rw [he]
    refine .bind_fail ?_
    have := RefusedHeader.sampleRate (codesOf b x 0) hres hbs hsr
    rwa [codesOf_bytes hb] at this
  rw [he, pure_bind]
  refine .bind (lim := .never) brefuses_readU8 btriple_readU8 ?_
  rintro _ y rfl
  obtain ⟨q1, _, q3, q4⟩ := split_byte y
  have hy := y.isLt
  rw [q1, q3]
  have hcodes := codesOf_bytes hb x y
  have hreserved : (codesOf b x y).Reserved → RefusedHeader ([0xff#8, b] ++ ([x] ++ ([y] ++ [])))
      (.formatError "invalid frame header, encountered reserved value") := by
    intro h
    have := RefusedHeader.reserved2 (codesOf b x y) hres hbs hsr h
    rwa [hcodes] at this
  rcases channelAssignmentCode_exact (show y.toNat / 16 < 16 by omega) with ⟨hch, he⟩ | ⟨hch, fch, hfch, he⟩
  · rw [he]
    exact .bind_fail (hreserved (.inr (.inr (.inr (.inl hch)))))
  rw [he, pure_bind]
  rcases bitsPerSampleCode_exact (show y.toNat / 2 % 8 < 8 by omega) with ⟨hss, he⟩ | ⟨hs3, hs7, fss, hfss, he⟩
  · rw [he]
    refine .bind_fail (hreserved ?_)
    rcases hss with h | h
    · exact .inr (.inr (.inr (.inr (.inl h))))
    · exact .inr (.inr (.inr (.inr (.inr (.inl h)))))
  rw [he, pure_bind]
  refine .ite (fun h => .fail (hreserved ?_)) (fun hres2 => ?_)
  · exact .inr (.inr (.inr (.inr (.inr (.inr (by simpa [codesOf] using q4.1 h))))))
  have hnr : ¬ (codesOf b x y).Reserved := by
    intro h
    rcases h with h | h | h | h | h | h | h
    · rw [show (codesOf b x y).reserved1 = false from hres] at h; cases h
    · exact hbs h
    · exact hsr h
    · exact absurd h (by simp only [codesOf]; omega)
    · exact hs3 h
    · exact hs7 h
    · exact hres2 (q4.2 (by simpa [codesOf] using h))
  have happ : ∀ v : List U8, [0xff#8, b] ++ ([x] ++ ([y] ++ v)) = (codesOf b x y).bytes ++ v := by
    intro v; rw [hcodes]; rfl
  simp only [happ]
  refine .bind ((brefuses_blockTime _).mono ?_) (btriple_blockTime _) ?_
  · rintro u e (⟨h, rfl⟩ | ⟨n, v, hn, hv, h31, rfl, rfl⟩)
    · exact .number _ hnr u h
    · exact .frameNumber _ hnr n v hn hv h31
  rintro _ t ⟨n, v, hn, h31, rfl, rfl⟩
  refine .bind (hbr.mono ?_) hbt ?_
  · rintro _ _ ⟨h7, rfl, rfl⟩
    rw [← List.append_assoc]
    exact .blockSize16 _ hnr n v hn h31 h7
  rintro _ size _
  refine .bind (hsrf _) hst ?_
  rintro _ _ _
  exact .pure _

theorem brefuses_header (s : Flat) {e : Error} {s' : Flat} (h : flatHeader s.bytes s = (.error (.err e), s')) :
    FromSource s.fault e ∨ ∃ used rest, s.bytes = used ++ rest ∧ RefusedHeader used e := by
  rcases s with ⟨bytes, f⟩
  unfold flatHeader at h
  match bytes, h with
  | [], h =>
    cases f with
    | none => cases h
    | some c => cases h; exact .inl rfl
  | [a], h =>
    cases f with
    | none => cases h
    | some c => cases h; exact .inl rfl
  | a :: b :: bs, h =>
    rw [Dec.bind_ok _ (show readBeU16OrEof (⟨a :: b :: bs, f⟩ : Flat) =
      (.ok (some (a.setWidth 16 <<< 8 ||| b.setWidth 16)), ⟨bs, f⟩) from rfl)] at h
    simp only at h
    have h1 := btriple_headerFields a b ⟨bs, f⟩
    have h2 := brefuses_headerFields a b ⟨bs, f⟩
    rw [Dec.bind_def] at h
    unfold flatHeaderRest at h
    rw [Dec.bind_def (headerFields _)] at h
    generalize headerFields (a.setWidth 16 <<< 8 ||| b.setWidth 16) (⟨bs, f⟩ : Flat) = x at h h1 h2
    rcases x with ⟨e1 | hd, s1⟩
    · simp only [Prod.mk.injEq, Except.error.injEq] at h
      obtain ⟨rfl, rfl⟩ := h
      rcases h2 e s1 rfl with h3 | ⟨u, rest, hu, hr⟩
      · exact .inl h3
      · exact .inr ⟨[a, b] ++ u, rest, by simp only at hu; rw [hu]; simp, hr⟩
    · obtain ⟨hf, u, hu, hdr, hw, hb, hh⟩ := h1
      rcases s1 with ⟨bs1, f1⟩
      simp only at hf hu
      subst hf hu
      simp only [Dec.bind_get_run] at h
      cases bs1 with
      | nil =>
        cases f1 <;> cases h
        · exact .inl rfl
        · exact .inl rfl
      | cons c rest =>
        have e3 : consumed (a :: b :: (u ++ c :: rest)) ⟨c :: rest, f1⟩ = hdr.fieldBytes := by
          rw [hb]
          have := consumed_append (used := [a, b] ++ u) (rest := c :: rest) (f := f1)
          simpa using this
        rw [Dec.bind_ok _ (show (readU8 : Dec Flat U8) ⟨c :: rest, f1⟩ = (.ok c, ⟨rest, f1⟩) from rfl),
          e3] at h
        by_cases hc : crc8 hdr.fieldBytes ≠ c
        · rw [if_pos ⟨rfl, hc⟩] at h
          cases h
          refine .inr ⟨hdr.fieldBytes ++ [c], rest, by rw [hb]; simp, .checksum hdr hw c (Ne.symm hc)⟩
        · rw [if_neg (fun h => hc h.2)] at h
          cases h

/-- If the frame reader fails with an error, other than the one of the source, the bytes are refused. -/
theorem refused_frame (buffer : VecI32) (s : Flat) {e : Error} {s' : Flat}
    (h : readNextOrEof buffer s = (.error (.err e), s')) :
    FromSource s.fault e ∨ ∃ used rest, s.bytes = used ++ rest ∧ RefusedFrame used e := by
  rw [readNextOrEof_flat, Dec.bind_def] at h
  have hh := header_reads s
  have hr := fun e s' => brefuses_header s (e := e) (s' := s')
  rw [readFrameHeaderOrEof_flat] at hh
  generalize flatHeader s.bytes s = x at hh hr h
  rcases x with ⟨e1 | _ | hd, s1⟩
  · simp only [Prod.mk.injEq, Except.error.injEq] at h
    obtain ⟨rfl, rfl⟩ := h
    rcases hr e s1 rfl with h1 | ⟨u, rest, hu, h1⟩
    · exact .inl h1
    · exact .inr ⟨u, rest, hu, .header u e h1⟩
  · cases h
  · obtain ⟨hf1, hdr, hw, rfl, hs⟩ := hh
    simp only [flatBody] at h
    have h1 := size_bounds hdr.blockSize
    rw [show (headerOf hdr).bitsPerSample = hdr.sampleSize.bits from rfl] at h
    rcases hsz : hdr.sampleSize.bits with _ | bps
    · rw [hsz] at h
      cases h
      exact .inr ⟨hdr.bytes, _, hs, .sampleSize hdr hw hsz⟩
    rw [hsz] at h
    have hb := bits_bounds hsz
    simp only at h
    rw [Dec.bind_liftM_of (debugAssert_ok (decide_eq_true (by omega)))] at h
    have hlen : (ensureBufferLen buffer ((headerOf hdr).channels * (headerOf hdr).blockSize)).data.length =
        hdr.channels.count * (headerOf hdr).blockSize := by rw [length_ensureBufferLen, channels_headerOf]
    have hbs : (headerOf hdr).blockSize < 2 ^ 16 := by show hdr.blockSize.size < _; omega
    have ht := BTriple.withBitstream (triple_decodeChannels hdr.channels (bps := bps) (by omega) hbs hlen) s1
    have hrf := BRefuses.withBitstream (refuses_decodeChannels hdr.channels (bps := bps) (by omega) hbs hlen) s1
    rw [show (headerOf hdr).channelAssignment = caOf hdr.channels from rfl, Dec.bind_def] at h
    generalize withBitstream (decodeChannels (caOf hdr.channels) bps (headerOf hdr).blockSize
        (ensureBufferLen buffer ((headerOf hdr).channels * (headerOf hdr).blockSize)).data) s1 = y at ht hrf h
    rcases y with ⟨e1 | data, s2⟩
    · simp only [Prod.mk.injEq, Except.error.injEq] at h
      obtain ⟨rfl, rfl⟩ := h
      rcases hrf e s2 rfl with h2 | ⟨body, rest, hu, used, more, hbody, hmore, good, d, bad, g1, g2, g3, rfl⟩
      · exact .inl (hf1 ▸ h2)
      · exact .inr ⟨hdr.bytes ++ body, rest, by rw [hs, hu, List.append_assoc],
          .subframe hdr bps hw hsz good g1 d g2 bad e g3 more hmore body hbody⟩
    · obtain ⟨hf2, used, hu, bits, pad, hub, hpad, subs, hcount, hsubs, rfl, rfl⟩ := ht
      simp only [Dec.bind_get_run] at h
      have hbody : Frame.bodyBits bps ⟨hdr, subs, pad⟩ = bytesToBits used := by rw [hub]; rfl
      have hfw : Frame.WellFormed bps ⟨hdr, subs, pad⟩ :=
        { header := hw
          sampleSize := hsz
          count := hcount
          subframes := hsubs
          padding := hpad
          aligned := by rw [hbody, length_bytesToBits]; omega }
      have hcont : Frame.contentBytes bps ⟨hdr, subs, pad⟩ = hdr.bytes ++ used := by
        rw [Frame.contentBytes, hbody, bitsToBytes_bytesToBits]
      have e3 : consumed s.bytes s2 = Frame.contentBytes bps ⟨hdr, subs, pad⟩ := by
        have := consumed_append (used := hdr.bytes ++ used) (rest := s2.bytes) (f := s2.fault)
        rw [hs, hu, ← List.append_assoc, hcont]
        exact this
      rw [e3, Dec.bind_def] at h
      have hcrc := btriple_readBeU16 (lim := .never) s2
      have hcr := brefuses_readBeU16 (Q := fun _ _ => False) s2
      generalize (readBeU16 : Dec Flat U16) s2 = z at hcrc hcr h
      rcases z with ⟨e1 | p, s3⟩
      · simp only [Prod.mk.injEq, Except.error.injEq] at h
        obtain ⟨rfl, rfl⟩ := h
        rcases hcr e s3 rfl with h2 | ⟨_, _, _, h2⟩
        · exact .inl (by rw [hf2, hf1] at h2; exact h2)
        · exact h2.elim
      · obtain ⟨hf3, used3, hu3, a, b, rfl, rfl⟩ := hcrc
        simp only at h
        by_cases hc : crc16 (Frame.contentBytes bps ⟨hdr, subs, pad⟩) ≠ a.setWidth 16 <<< 8 ||| b.setWidth 16
        · rw [if_pos ⟨rfl, hc⟩] at h
          cases h
          refine .inr ⟨Frame.contentBytes bps ⟨hdr, subs, pad⟩ ++ [a, b], s'.bytes, ?_,
            .checksum _ bps hfw a b fun h' => hc (BitVec.eq_of_toNat_eq ?_)⟩
          · rw [hs, hu, hu3, hcont]; simp
          · rw [beU16_toNat, h']
        · rw [if_neg (fun h => hc h.2)] at h
          rw [Dec.bind_liftM_of (frameTime_ok _ hw)] at h
          rw [Dec.bind_liftM_of (show Block.new hdr.time (headerOf hdr).blockSize
              { data := toI32 (hdr.channels.decorrelate Arith.wrap32.wrap
                  (subs.map (Subframe.samplesWith .wrap32 (headerOf hdr).blockSize))).flatten
                cap := (ensureBufferLen buffer ((headerOf hdr).channels *
                  (headerOf hdr).blockSize)).cap } = .ok (blockOf ⟨hdr, subs, pad⟩ buffer) by
            rw [channels_headerOf]; exact block_new hfw buffer)] at h
          cases h

end Claxon
