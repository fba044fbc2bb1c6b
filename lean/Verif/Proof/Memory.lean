import Verif.Proof.Capacity
import Verif.Model.Memory
import Verif.Proof.Buffered

/-! # `read_into`, with the buffer that it fills -/

namespace Claxon

open Spec

theorem initialised_some (bytes : List U8) : initialised (bytes.map some) = some bytes := by
  unfold initialised
  induction bytes with
  | nil => rfl
  | cons b bytes ih =>
    rw [List.map_cons, List.mapM_cons, ih]
    rfl

theorem copyFromSlice_ok {buffer : List Cell} {a b : Nat} {src : List U8} (h : a ≤ b ∧ b ≤ buffer.length)
    (hl : src.length = b - a) :
    copyFromSlice buffer a b src = .ok (buffer.take a ++ src.map some ++ buffer.drop b) := by
  rw [copyFromSlice, if_pos h, if_pos hl]

theorem subU_of_le [Build] {w a b : Nat} (h : b ≤ a) : subU w a b = .ok (a - b) := if_pos h

namespace BufferedReader

/-- The buffer when `n` cells of it are left, and `bytes` have been written to the first of them. -/
def put (buffer : List Cell) (n : Nat) (bytes : List U8) : List Cell :=
  buffer.take (buffer.length - n) ++ bytes.map some ++ buffer.drop (buffer.length - n + bytes.length)

theorem put_length {buffer : List Cell} {n : Nat} {bytes : List U8} (hn : n ≤ buffer.length)
    (hb : bytes.length ≤ n) : (put buffer n bytes).length = buffer.length := by
  simp only [put, List.length_append, List.length_take, List.length_map, List.length_drop]
  omega

theorem put_put {buffer : List Cell} {n m : Nat} {xs ys : List U8} (hn : n ≤ buffer.length)
    (hx : m + xs.length = n) (hy : ys.length ≤ m) :
    put (put buffer n xs) m ys = put buffer n (xs ++ ys) := by
  have hl : (put buffer n xs).length = buffer.length := put_length hn (by omega)
  rw [put, hl]
  have h1 : (put buffer n xs).take (buffer.length - m) =
      buffer.take (buffer.length - n) ++ xs.map some := by
    rw [put, List.take_append_of_le_length (by simp; omega), List.take_of_length_le (by simp; omega)]
  have h2 : (put buffer n xs).drop (buffer.length - m + ys.length) =
      buffer.drop (buffer.length - n + (xs ++ ys).length) := by
    rw [put, List.drop_append, List.drop_of_length_le (by simp; omega), List.nil_append, List.drop_drop]
    congr 1
    simp
    omega
  rw [h1, h2, put]
  simp

theorem put_all {buffer : List Cell} {bytes : List U8} (h : bytes.length = buffer.length) :
    put buffer buffer.length bytes = bytes.map some := by
  rw [put, Nat.sub_self, List.drop_of_length_le (by omega)]
  simp

theorem put_nil {buffer : List Cell} {n : Nat} : put buffer n [] = buffer := by
  simp [put]

variable [Build]

/-- One pass of the loop. -/
theorem fillLoop_pass (fuel n : Nat) (r : BufferedReader) (buffer : List Cell) (hn : 0 < n)
    (hb : n ≤ buffer.length) :
    (∃ p, readIntoStep n r = (.error (.panic p), r) ∧
      fillLoop (fuel + 1) n (r, buffer) = (.error (.panic p), (r, buffer))) ∨
    ∃ copied, copied.length ≤ n ∧
      (∀ avail, subU 32 r.numValid r.pos = .ok avail →
        copied = (r.buf.take (r.pos + min n avail)).drop r.pos) ∧
      ((∃ f r', readIntoStep n r = (.error f, r') ∧
        fillLoop (fuel + 1) n (r, buffer) = (.error f, (r', put buffer n copied))) ∨
      ∃ m r', m + copied.length = n ∧ readIntoStep n r = (.ok (copied, m), r') ∧
        fillLoop (fuel + 1) n (r, buffer) = fillLoop fuel m (r', put buffer n copied)) := by
  unfold readIntoStep
  rw [fillLoop]
  simp only [Dec.ite_run, Dec.bind_get_run, if_pos hn]
  rw [Dec.bind_liftM_of (subU_of_le hb)]
  cases ha : subU 32 r.numValid r.pos with
  | error f =>
    have : ∃ p, f = .panic p := by
      unfold subU orPanic at ha
      split at ha
      · simp at ha
      · split at ha
        · exact ⟨_, by simpa [panicRes] using ha.symm⟩
        · simp at ha
    obtain ⟨p, rfl⟩ := this
    exact .inl ⟨p, rfl, rfl⟩
  | ok avail =>
    simp only [Dec.bind_liftM_of rfl]
    by_cases hs : r.pos ≤ r.pos + min n avail ∧ r.pos + min n avail ≤ r.buf.length
    · right
      have hl : ((r.buf.take (r.pos + min n avail)).drop r.pos).length = min n avail := by
        simp only [List.length_drop, List.length_take]
        omega
      refine ⟨(r.buf.take (r.pos + min n avail)).drop r.pos, by omega, fun a h => by
        simp only [Except.ok.injEq] at h; rw [h], ?_⟩
      have hput : buffer.take (buffer.length - n) ++
          ((r.buf.take (r.pos + min n avail)).drop r.pos).map some ++
          buffer.drop (buffer.length - n + min n avail) =
          put buffer n ((r.buf.take (r.pos + min n avail)).drop r.pos) := by
        rw [put, hl]
      rw [Dec.bind_liftM_of (slice_ok hs), Dec.bind_liftM_of (slice_ok hs),
        Dec.bind_liftM_of (copyFromSlice_ok (by omega) (by rw [hl]; omega)), Dec.bind_set_run, hput]
      generalize (r.buf.take (r.pos + min n avail)).drop r.pos = copied at hl
      generalize put buffer n copied = buffer'
      cases hp : addU 32 r.pos (min n avail) with
      | error f => exact .inl ⟨f, r, rfl, rfl⟩
      | ok pos' =>
        simp only [Dec.bind_liftM_of rfl, Dec.bind_set_run, Dec.ite_run]
        by_cases hm : n - min n avail > 0
        · rw [if_pos hm, if_pos hm]
          generalize hr : refill { r with pos := pos' } = x
          rcases x with ⟨f | _, r'⟩
          · rw [Dec.bind_error _ hr, Dec.bind_error _ (e := f) (s' := (r', buffer')) (by
              rw [Dec.zoom_run]; simp only [hr])]
            exact .inl ⟨f, r', rfl, rfl⟩
          · rw [Dec.bind_ok _ hr, Dec.bind_ok _ (a := ()) (s' := (r', buffer')) (by
              rw [Dec.zoom_run]; simp only [hr])]
            simp only [Dec.bind_get_run, Dec.ite_run]
            by_cases h0 : r'.numValid = 0
            · rw [if_pos h0, if_pos h0]
              exact .inl ⟨_, r', rfl, rfl⟩
            · rw [if_neg h0, if_neg h0]
              exact .inr ⟨_, r', by omega, rfl, rfl⟩
        · rw [if_neg hm, if_neg hm]
          refine .inr ⟨0, _, by omega, rfl, ?_⟩
          rw [show n - min n avail = 0 by omega]
    · left
      have hs' : slice r.buf r.pos (r.pos + min n avail) = .error (.panic .index) := if_neg hs
      rw [hs']
      exact ⟨_, rfl, rfl⟩

/-- The loop does what the loop does that returns the bytes; and it writes to the front of what is left
of the buffer. -/
theorem fillLoop_eq (fuel : Nat) : ∀ (n : Nat) (r : BufferedReader) (buffer : List Cell),
    n ≤ buffer.length →
    (∃ bytes r', bytes.length = n ∧ readIntoLoop fuel n r = (.ok bytes, r') ∧
      fillLoop fuel n (r, buffer) = (.ok (), (r', put buffer n bytes))) ∨
    ∃ f front r', front.length ≤ n ∧ readIntoLoop fuel n r = (.error f, r') ∧
      fillLoop fuel n (r, buffer) = (.error f, (r', put buffer n front)) := by
  induction fuel with
  | zero =>
    intro n r buffer _
    exact .inr ⟨.diverged, [], r, Nat.zero_le _, rfl, by rw [put_nil]; rfl⟩
  | succ fuel ih =>
    intro n r buffer hb
    by_cases hn : 0 < n
    · rw [readIntoLoop, Dec.ite_run, if_pos hn]
      rcases fillLoop_pass fuel n r buffer hn hb with ⟨p, h1, h2⟩ |
        ⟨copied, hc, _, ⟨f, r', h1, h2⟩ | ⟨m, r', hm, h1, h2⟩⟩
      · rw [Dec.bind_error _ h1, h2]
        exact .inr ⟨_, [], r, Nat.zero_le _, rfl, by rw [put_nil]⟩
      · rw [Dec.bind_error _ h1, h2]
        exact .inr ⟨_, copied, r', hc, rfl, rfl⟩
      · rw [Dec.bind_ok _ h1, h2]
        simp only
        rcases ih m r' (put buffer n copied) (by rw [put_length hb hc]; omega) with
          ⟨bytes, r2, hl, h3, h4⟩ | ⟨f, front, r2, hl, h3, h4⟩
        · rw [Dec.bind_ok _ h3, h4, put_put hb hm (by omega)]
          exact .inl ⟨_, r2, by rw [List.length_append]; omega, rfl, rfl⟩
        · rw [Dec.bind_error _ h3, h4, put_put hb hm hl]
          exact .inr ⟨f, _, r2, by rw [List.length_append]; omega, rfl, rfl⟩
    · obtain rfl : n = 0 := by omega
      refine .inl ⟨[], r, rfl, rfl, ?_⟩
      rw [put_nil]
      rfl

theorem fill_eq (r : BufferedReader) (buffer : List Cell) :
    (∃ bytes r', bytes.length = buffer.length ∧ readInto buffer.length r = (.ok bytes, r') ∧
      fill (r, buffer) = (.ok (), (r', bytes.map some))) ∨
    ∃ (f : Fail) (front : List U8) (r' : BufferedReader), front.length ≤ buffer.length ∧ readInto buffer.length r = (.error f, r') ∧
      fill (r, buffer) = (.error f, (r', front.map some ++ buffer.drop front.length)) := by
  rcases fillLoop_eq (buffer.length + 2) buffer.length r buffer (Nat.le_refl _) with
    ⟨bytes, r', hl, h1, h2⟩ | ⟨f, front, r', hl, h1, h2⟩
  · exact .inl ⟨bytes, r', hl, h1, by rw [put_all hl] at h2; exact h2⟩
  · refine .inr ⟨f, front, r', hl, h1, ?_⟩
    rw [put, Nat.sub_self, List.take_zero, List.nil_append, Nat.zero_add] at h2
    exact h2

theorem readVec_eq (n : Nat) : readVec fill n = readInto n := by
  funext r
  rw [readVec]
  rcases fill_eq r (List.replicate n none) with ⟨bytes, r', _, h1, h2⟩ | ⟨f, front, r', _, h1, h2⟩
  · rw [List.length_replicate] at h1
    rw [h1, h2]
    simp only [initialised_some]
  · rw [List.length_replicate] at h1
    rw [h1, h2]

end BufferedReader

namespace BufferedReader

/-- If a pass of the loop fails, everything that was left has been copied. -/
theorem readIntoStep_error {fault : Option Nat} {r r' : BufferedReader} {t : Flat} {f : Fail}
    (h : BufRel fault r t) {n : Nat} (he : readIntoStep n r = (.error f, r')) :
    t.bytes = (r.buf.take (r.pos + min n (r.numValid - r.pos))).drop r.pos := by
  have hpos := h.pos
  have hval := h.valid
  have hcap := h.cap
  have hk : min n (r.numValid - r.pos) ≤ r.numValid - r.pos := Nat.min_le_right _ _
  obtain ⟨hadv, htake, hle⟩ := BufRel.advance h hk
  unfold readIntoStep at he
  simp only [Dec.bind_get_run] at he
  rw [Dec.bind_liftM_of (subU_ok hpos), Dec.bind_liftM_of (slice_ok (by omega)),
    Dec.bind_liftM_of (addU_ok (by have := capacity_le; omega))] at he
  simp only [Dec.bind_set_run, Dec.ite_run] at he
  by_cases hn : n ≤ r.numValid - r.pos
  · rw [Nat.min_eq_left hn, if_neg (by omega)] at he
    simp at he
  · rw [Nat.min_eq_right (by omega)] at *
    rw [if_pos (by omega)] at he
    obtain ⟨hcap', hpos', hval', ht', rest, hd, hb⟩ := hadv
    simp only at hcap' hpos' hval' ht' hb hd
    have hrest : t.bytes.drop (r.numValid - r.pos) = rest := by
      rw [hb, show r.pos + (r.numValid - r.pos) = r.numValid by omega,
        List.drop_of_length_le (by rw [List.length_take]; omega)]
      rfl
    have hall : rest = [] → t.bytes = (r.buf.take (r.pos + (r.numValid - r.pos))).drop r.pos := by
      intro h0
      have := List.take_append_drop (r.numValid - r.pos) t.bytes
      rw [hrest, h0, List.append_nil] at this
      rw [← htake, this]
    rcases refill_spec (r := { r with pos := r.pos + (r.numValid - r.pos) }) hcap' hd with
      ⟨r2, hr, hrel, hp0, hcase⟩ | ⟨code, r2, hf, hre, hr⟩
    · rcases hcase with ⟨hn', hne⟩ | ⟨hn', hre, hfa⟩
      · rw [Dec.bind_ok _ hr] at he
        simp only [Dec.bind_get_run, Dec.ite_run] at he
        rw [if_neg (by omega)] at he
        simp at he
      · exact hall hre
    · exact hall hre

/-- If there are not enough bytes, all of them are written to the buffer. -/
theorem fillLoop_short {fault : Option Nat} (fuel : Nat) : ∀ (n : Nat) (r r' : BufferedReader) (t : Flat)
    (buffer buffer' : List Cell) (e : Error), BufRel fault r t → n ≤ buffer.length →
    fillLoop fuel n (r, buffer) = (.error (.err e), (r', buffer')) →
    t.bytes.length ≤ n ∧ buffer' = put buffer n t.bytes := by
  induction fuel with
  | zero => intro n r r' t buffer buffer' e _ _ he; simp [fillLoop, Dec.fail] at he
  | succ fuel ih =>
    intro n r r' t buffer buffer' e h hb he
    by_cases hn : 0 < n
    · rcases fillLoop_pass fuel n r buffer hn hb with ⟨p, h1, h2⟩ |
        ⟨copied, hc, hce, ⟨f, r2, h1, h2⟩ | ⟨m, r2, hm, h1, h2⟩⟩
      · rw [h2] at he; simp at he
      · rw [h2] at he
        have hcb := hce _ (subU_ok h.pos)
        rw [← readIntoStep_error h h1] at hcb
        simp only [Prod.mk.injEq] at he
        rw [← he.2.2, hcb]
        exact ⟨hcb ▸ hc, rfl⟩
      · rw [h2] at he
        rcases readIntoStep_spec h n with ⟨r3, hs, hle, hrel⟩ | ⟨r3, k, hkn, hke, hs, hle, hrel, hp⟩ |
          ⟨r3, hlt, hf', hs, hrel⟩ | ⟨r3, code, hlt, hf', hs⟩
        · rw [h1] at hs
          simp only [Prod.mk.injEq, Except.ok.injEq] at hs
          obtain ⟨⟨rfl, rfl⟩, rfl⟩ := hs
          cases fuel <;> simp [fillLoop, Dec.fail] at he
        · rw [h1] at hs
          simp only [Prod.mk.injEq, Except.ok.injEq] at hs
          obtain ⟨⟨rfl, rfl⟩, rfl⟩ := hs
          obtain ⟨h3, h4⟩ := ih _ _ _ _ _ _ _ hrel (by rw [put_length hb hc]; omega) he
          simp only [List.length_drop] at h3
          refine ⟨by omega, ?_⟩
          rw [h4, put_put hb hm (by simp only [List.length_drop]; exact h3), List.take_append_drop]
        · rw [h1] at hs; simp at hs
        · rw [h1] at hs; simp at hs
    · obtain rfl : n = 0 := by omega
      simp [fillLoop] at he

end BufferedReader

namespace Cursor

variable [Build]

theorem fill_eq {c : Cursor} {buffer : List Cell} (hp : c.pos < 2 ^ 64)
    (hn : buffer.length < 2 ^ 64) :
    (∃ bytes c', bytes.length = buffer.length ∧ readInto buffer.length c = (.ok bytes, c') ∧
      fill (c, buffer) = (.ok (), (c', bytes.map some))) ∨
    ∃ f, readInto buffer.length c = (.error f, c) ∧ fill (c, buffer) = (.error f, (c, buffer)) := by
  unfold readInto fill
  simp only [Dec.bind_get_run]
  cases ha : addU 64 c.pos buffer.length with
  | error f => exact .inr ⟨f, rfl, rfl⟩
  | ok end_ =>
    simp only [Dec.bind_liftM_of rfl, Dec.ite_run]
    by_cases he : end_ ≤ c.data.length
    · rw [if_pos he, if_pos he]
      by_cases hs : c.pos ≤ end_ ∧ end_ ≤ c.data.length
      · have hl : ((c.data.take end_).drop c.pos).length = buffer.length := by
          simp only [List.length_drop, List.length_take]
          unfold addU orPanic at ha
          split at ha
          · simp only [Except.ok.injEq] at ha; omega
          · split at ha
            · simp [panicRes] at ha
            · simp only [Except.ok.injEq] at ha
              omega
        rw [Dec.bind_liftM_of (slice_ok hs), Dec.bind_liftM_of (slice_ok hs),
          Dec.bind_liftM_of (copyFromSlice_ok (by omega) (by omega))]
        refine .inl ⟨_, _, hl, rfl, ?_⟩
        simp only [Dec.bind_set_run, List.take_zero, List.nil_append, List.drop_length, List.append_nil]
        rfl
      · have hs' : slice c.data c.pos end_ = .error (.panic .index) := if_neg hs
        rw [hs']
        exact .inr ⟨_, rfl, rfl⟩
    · rw [if_neg he, if_neg he]
      exact .inr ⟨_, rfl, rfl⟩

end Cursor

end Claxon
