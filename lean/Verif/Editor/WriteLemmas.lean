import Verif.Editor.Editor
import Verif.Props.OutputStream

/-!
# The writing primitives used by the editor, for both bit orders
-/

set_option linter.unusedVariables false
set_option linter.unusedSimpArgs false

namespace Hachoir.Editor
open Hachoir Hachoir.Stream Spec

/-- The bits of a byte string in the order of the endianness. -/
def dataBits (e : Endian) (d : Bytes) : List Bool :=
  match e with | .little => bitsLSB d | _ => bitsMSB d

/-- The digits of a number in the order of the endianness. -/
def toBits (e : Endian) (n v : Nat) : List Bool :=
  match e with | .little => toBitsLSB n v | _ => toBitsMSB n v

/-- The bits written to an output stream. -/
def outBits (e : Endian) (o : OutputStream) : List Bool :=
  match e with | .little => bitsLE o | _ => bitsBE o

/-- Consistent output stream. -/
def OutOk (e : Endian) (o : OutputStream) : Prop :=
  match e with | .little => InvLE o | _ => InvBE o

/-- Bits `[a, a+n)`. -/
def slice (l : List Bool) (a n : Nat) : List Bool := (l.drop a).take n

theorem length_dataBits (e : Endian) (d : Bytes) : (dataBits e d).length = 8 * d.length := by
  cases e <;> simp [dataBits, length_bitsMSB, length_bitsLSB]

theorem length_toBits (e : Endian) (n v : Nat) : (toBits e n v).length = n := by
  cases e <;> simp [toBits, length_toBitsMSB, length_toBitsLSB]

theorem dataBits_append (e : Endian) (a b : Bytes) :
    dataBits e (a ++ b) = dataBits e a ++ dataBits e b := by
  cases e <;> simp [dataBits, bitsMSB_append, bitsLSB_append]

theorem length_slice (l : List Bool) (a n : Nat) (h : a + n ≤ l.length) : (slice l a n).length = n := by
  simp [slice]; omega

theorem slice_append (l : List Bool) (a m n : Nat) : slice l a m ++ slice l (a + m) n = slice l a (m + n) := by
  unfold slice
  rw [← List.drop_drop, List.take_add]

theorem OutOk.bitPos {e : Endian} {o : OutputStream} (h : OutOk e o) : o.bitPos < 8 := by
  cases e <;> exact h.1

theorem outOk_init (e : Endian) : OutOk e OutputStream.init := by
  cases e
  · exact Props.init_invBE
  · exact Props.init_invLE
  · exact Props.init_invBE

theorem outBits_init (e : Endian) : outBits e OutputStream.init = [] := by
  cases e <;> rfl

theorem length_outBits (e : Endian) (o : OutputStream) (h : OutOk e o) :
    (outBits e o).length = 8 * o.out.length + o.bitPos := by
  have := h.bitPos
  cases e
  · exact length_bitsBE o this
  · exact length_bitsLE o this
  · exact length_bitsBE o this

theorem writeBytes_spec {e : Endian} {o : OutputStream} (ho : OutOk e o) (d : Bytes) {o' : OutputStream}
    (h : writeBytes o d = .ok o') : OutOk e o' ∧ outBits e o' = outBits e o ++ dataBits e d := by
  unfold writeBytes at h
  split at h
  · cases h
  · rename_i h0
    have h0 : o.bitPos = 0 := by omega
    simp only [Except.ok.injEq] at h
    subst h
    refine ⟨?_, ?_⟩
    · cases e <;> exact ho
    · cases e <;> simp [outBits, dataBits, bitsBE, bitsLE, h0, bitsMSB_append, bitsLSB_append]

theorem copyBytes_spec {e : Endian} {data : Bytes} {s : InputStream} (hs : stringInputStream data = .ok s)
    {o : OutputStream} (ho : OutOk e o) (a n : Nat) (hin : a + 8 * n ≤ 8 * data.length)
    {o' : OutputStream} (h : copyBytesFrom o s a n = .ok o') :
    OutOk e o' ∧ outBits e o' = outBits e o ++ slice (dataBits e data) a (8 * n) := by
  by_cases ha : (a : Int) % 8 ≠ 0
  · simp [copyBytesFrom, ha] at h
  obtain ⟨p, rfl⟩ : ∃ p, a = 8 * p := ⟨a / 8, by omega⟩
  by_cases h0 : o.bitPos = 0
  · rw [Props.C46_copyBytesFrom data s hs o h0 p n (by omega)] at h
    simp only [Except.ok.injEq] at h
    subst h
    refine ⟨by cases e <;> exact ho, ?_⟩
    cases e <;>
      simp [outBits, dataBits, slice, bitsBE, bitsLE, h0, bitsMSB_append, bitsLSB_append, bitsMSB_take,
        bitsMSB_drop, bitsLSB_take, bitsLSB_drop]
  · unfold copyBytesFrom at h
    rw [if_neg ha, copyLoop] at h
    by_cases hn : 0 < n
    · exfalso
      simp only [hn, dif_pos] at h
      split at h
      · cases h
      · simp [writeBytes, h0] at h
    · have hn0 : n = 0 := by omega
      subst hn0
      simp only [Nat.lt_irrefl, dif_neg, not_false_eq_true, Except.ok.injEq] at h
      subst h
      exact ⟨ho, by simp [slice]⟩

theorem copyBytes_total {data : Bytes} {s : InputStream} (hs : stringInputStream data = .ok s)
    {o : OutputStream} (h0 : o.bitPos = 0) (a n : Nat) (ha : a % 8 = 0)
    (hin : a + 8 * n ≤ 8 * data.length) :
    ∃ o', copyBytesFrom o s a n = .ok o' ∧ o'.bitPos = 0 := by
  obtain ⟨p, rfl⟩ : ∃ p, a = 8 * p := ⟨a / 8, by omega⟩
  exact ⟨_, Props.C46_copyBytesFrom data s hs o h0 p n (by omega), h0⟩

theorem copyBits_spec {e : Endian} (he : e ≠ .middle) {data : Bytes} {s : InputStream}
    (hs : stringInputStream data = .ok s)
    {o : OutputStream} (ho : OutOk e o) (a n : Nat) (hin : a + n ≤ 8 * data.length)
    {o' : OutputStream} (h : copyBitsFrom o s a n e = .ok o') :
    OutOk e o' ∧ outBits e o' = outBits e o ++ slice (dataBits e data) a n := by
  by_cases hn : n ≤ maxBitLength
  · cases e with
    | middle => exact absurd rfl he
    | big =>
      obtain ⟨o1, e1, e2, e3⟩ := Props.C46_copyBitsFrom_big data s hs o ho a n hn hin
      rw [e1] at h; cases h
      exact ⟨e2, e3⟩
    | little =>
      obtain ⟨o1, e1, e2, e3⟩ := Props.C46_copyBitsFrom_little data s hs o ho a n hn hin
      rw [e1] at h; cases h
      exact ⟨e2, e3⟩
  · unfold copyBitsFrom at h
    split at h
    · rename_i hal
      obtain ⟨k, rfl⟩ : ∃ k, n = 8 * k := ⟨n / 8, by omega⟩
      rw [show 8 * k / 8 = k by omega] at h
      exact copyBytes_spec hs ho a k hin h
    · cases h

theorem writeBits_spec {e : Endian} (he : e ≠ .middle) {o : OutputStream} (ho : OutOk e o) (n v : Nat)
    (hv : v < 2 ^ n) : ∃ o', writeBits o n v e = .ok o' ∧ OutOk e o' ∧
      outBits e o' = outBits e o ++ toBits e n v := by
  cases e with
  | middle => exact absurd rfl he
  | big => exact writeBits_big o ho n v hv
  | little => exact writeBits_little o ho n v hv

theorem dataBits_long2raw {e : Endian} (he : e ≠ .middle) (v k : Nat) (hv : v < 256 ^ k) :
    ∃ raw, Bits.long2raw (v : Int) e (some k) = .ok raw ∧ dataBits e raw = toBits e (8 * k) v := by
  have h1 := Bits.long2raw_ok v e he (some k)
  refine ⟨_, h1, ?_⟩
  have hl := (Bits.long2raw_length v e k _ h1).1 hv
  have hv2 := Bits.str2long_long2raw v e he (some k) _ h1
  generalize (let t := Bits.long2rawLoop v ++
      List.replicate ((some k).getD 0 - (Bits.long2rawLoop v).length) 0
    if e = .big then t.reverse else t) = raw at *
  cases e with
  | middle => exact absurd rfl he
  | big =>
    simp only [Bits.str2long, Bits.intFromBytesBig_eq, Except.ok.injEq] at hv2
    apply ofBitsMSB_inj
    · simp [dataBits, toBits, length_bitsMSB, length_toBitsMSB, hl]
    · show ofBitsMSB (bitsMSB raw) = ofBitsMSB (toBitsMSB (8 * k) v)
      rw [← ofBytesBE_eq, hv2, ofBitsMSB_toBitsMSB, Nat.mod_eq_of_lt (by rw [← pow256]; exact hv)]
  | little =>
    simp only [Bits.str2long, Bits.intFromBytesLittle_eq, Except.ok.injEq] at hv2
    apply ofBitsLSB_inj
    · simp [dataBits, toBits, length_bitsLSB, length_toBitsLSB, hl]
    · show ofBitsLSB (bitsLSB raw) = ofBitsLSB (toBitsLSB (8 * k) v)
      rw [← ofBytesLE_eq, hv2, ofBitsLSB_toBitsLSB, Nat.mod_eq_of_lt (by rw [← pow256]; exact hv)]

theorem writeInteger_spec {e : Endian} (he : e ≠ .middle) {o : OutputStream} (ho : OutOk e o) (v k : Nat)
    (hv : v < 256 ^ k) {o' : OutputStream} (h : writeInteger o v false k e = .ok o') :
    OutOk e o' ∧ outBits e o' = outBits e o ++ toBits e (8 * k) v := by
  obtain ⟨raw, h1, h2⟩ := dataBits_long2raw he v k hv
  unfold writeInteger at h
  simp only [Bool.false_eq_true, false_and, if_false, h1] at h
  rw [← h2]
  exact writeBytes_spec ho raw h

theorem writeInteger_total {e : Endian} (he : e ≠ .middle) {o : OutputStream} (h0 : o.bitPos = 0) (v k : Nat) :
    ∃ o', writeInteger o v false k e = .ok o' ∧ o'.bitPos = 0 := by
  unfold writeInteger
  simp [Bits.long2raw_ok v e he (some k), writeBytes, h0]

end Hachoir.Editor
