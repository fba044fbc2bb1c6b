import Verif.Proof.Client
import Verif.Proof.Logic
import Verif.Spec.Unread

/-! # Bit-level reading through a buffered reader -/

namespace Claxon

open Spec

variable {α : Type} {fault : Option Nat}

theorem Bitstream.Unread.new {r : BufferedReader} {bytes : List U8} (h : r.Remaining bytes fault) :
    (Bitstream.new r).Unread (bytesToBits bytes) fault :=
  ⟨by simp [Bitstream.new], by simp [Bitstream.new], bytes, h, by simp [Bitstream.new]⟩

/-- The flat reader that corresponds to a buffered one. -/
theorem Bitstream.Unread.flat {b : Bitstream BufferedReader} {bits : List Bool}
    (h : b.Unread bits fault) :
    ∃ c : Bitstream Flat, BitstreamRel (BufRel fault) b c ∧ c.Inv ∧ c.bits = bits ∧
      c.reader.fault = fault := by
  obtain ⟨h1, h2, bytes, h3, h4⟩ := h
  exact ⟨⟨⟨bytes, fault⟩, b.data, b.bitsLeft⟩, ⟨h3.rel, rfl, rfl⟩, ⟨h1, h2⟩, h4.symm, rfl⟩

theorem BitstreamRel.unread {b : Bitstream BufferedReader} {c : Bitstream Flat}
    (h : BitstreamRel (BufRel fault) b c) (hc : c.Inv) : b.Unread c.bits fault := by
  obtain ⟨h1, h2, h3⟩ := h
  refine ⟨by rw [h3]; exact hc.le, by rw [h2, h3]; exact hc.low, c.reader.bytes, h1.remaining, ?_⟩
  rw [h2, h3]
  rfl

variable {m : Dec (Bitstream BufferedReader) α} {m' : Dec (Bitstream Flat) α} {E : Fail → Prop}
  (hsim : Sim (BitstreamRel (BufRel fault)) E True m m')

include hsim

theorem Reads.buffered {bits rest : List Bool} {a : α} (hm : Reads m' bits a)
    {b : Bitstream BufferedReader} (hb : b.Unread (bits ++ rest) fault) :
    ∃ b', m b = (.ok a, b') ∧ b'.Unread rest fault := by
  obtain ⟨c, hrel, hinv, hbits, hf⟩ := hb.flat
  obtain ⟨c', h1, h2, h3, h4⟩ := hm c rest hinv hbits
  rcases hsim b c hrel with ⟨e1, e2⟩ | ⟨f, e1, e2, e3⟩
  · rw [h1] at e1 e2
    have := BitstreamRel.unread e2 h2
    rw [h3] at this
    exact ⟨(m b).2, Prod.ext e1 rfl, this⟩
  · rw [h1] at e3
    exact absurd (e3 trivial) (by simp)

theorem FailsOn.buffered {bits rest : List Bool} {e : Fail} {x : Bool} (hm : FailsOn m' bits e x)
    {b : Bitstream BufferedReader} (hb : b.Unread (bits ++ rest) fault) :
    ∃ b', m b = (.error e, b') := by
  obtain ⟨c, hrel, hinv, hbits, hf⟩ := hb.flat
  obtain ⟨c', h1, -⟩ := hm c rest hinv hbits
  rcases hsim b c hrel with ⟨e1, e2⟩ | ⟨f, e1, e2, e3⟩
  · rw [h1] at e1
    exact ⟨(m b).2, Prod.ext e1 rfl⟩
  · rw [h1] at e3
    exact ⟨(m b).2, Prod.ext (by rw [e1, ← e3 trivial]) rfl⟩

theorem Triple.buffered {P : List Bool → α → Prop} (hm : Triple m' P) {bits : List Bool}
    {b : Bitstream BufferedReader} (hb : b.Unread bits fault) {a : α} {b' : Bitstream BufferedReader}
    (h : m b = (.ok a, b')) :
    ∃ used rest, bits = used ++ rest ∧ P used a ∧ b'.Unread rest fault := by
  obtain ⟨c, hrel, hinv, hbits, hf⟩ := hb.flat
  have h1 := hm c hinv
  rcases hsim b c hrel with ⟨e1, e2⟩ | ⟨f, e1, e2, e3⟩
  · rw [h] at e1 e2
    generalize m' c = y at h1 e1 e2
    rcases y with ⟨r, c'⟩
    obtain rfl : Except.ok a = r := e1
    obtain ⟨h2, h3, used, h4, h5⟩ := h1
    exact ⟨used, c'.bits, by rw [← hbits, h4], h5, BitstreamRel.unread e2 h2⟩
  · rw [h] at e1
    cases e1

theorem Triple.buffered_noPanic {P : List Bool → α → Prop} (hm : Triple m' P) {bits : List Bool}
    {b : Bitstream BufferedReader} (hb : b.Unread bits fault) (hlen : ¬ LongZeros bits) :
    (∃ a b', m b = (.ok a, b')) ∨ ∃ e b', m b = (.error (.err e), b') := by
  obtain ⟨c, hrel, hinv, hbits, hf⟩ := hb.flat
  have h1 := hm c hinv
  have key : (m b).1 = (m' c).1 := by
    rcases hsim b c hrel with ⟨e1, e2⟩ | ⟨f, e1, e2, e3⟩
    · exact e1
    · rw [e1, e3 trivial]
  rcases hmb : m b with ⟨r, b'⟩
  rw [hmb] at key
  generalize m' c = y at h1 key
  rcases y with ⟨r', c'⟩
  obtain rfl : r = r' := key
  rw [← hbits] at hlen
  cases r with
  | ok a => exact .inl ⟨a, b', rfl⟩
  | error f =>
    cases f with
    | err e => exact .inr ⟨e, b', rfl⟩
    | panic p => exact absurd h1.2 hlen
    | ub => exact absurd h1.2 hlen
    | diverged => exact absurd h1.2 hlen

end Claxon
