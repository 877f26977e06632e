import Verif.Formats.MpegTs
import Verif.Props.Real
import Verif.Props.Macho
import Verif.Props.InputStream
import Mathlib.Tactic.Ring

/-!
# MPEG transport streams
-/

namespace Hachoir.Props
open Hachoir Hachoir.Stream Hachoir.Field Hachoir.Formats Spec

theorem bits_append (e : Endian) : ∀ (ws us : List Nat), Rd.bits e (ws ++ us) = Rd.bits e ws >>= fun a => Rd.bits e us >>= fun b => Pure.pure (a ++ b)
  | [], us => by
    funext s stop addr
    show Rd.bits e us s stop addr = Rd.bind (Rd.bits e us) (fun b => Rd.pure b) s stop addr
    rw [Rd.bind]
    cases Rd.bits e us s stop addr <;> rfl
  | w :: ws, us => by
    funext s stop addr
    show Rd.bind (Rd.bit e w) (fun v => Rd.bind (Rd.bits e (ws ++ us)) fun vs => Rd.pure (v :: vs)) s stop addr =
      Rd.bind (Rd.bind (Rd.bit e w) fun v => Rd.bind (Rd.bits e ws) fun vs => Rd.pure (v :: vs)) (fun a => Rd.bind (Rd.bits e us) fun b => Rd.pure (a ++ b)) s stop addr
    rw [Rd.bind, Rd.bind, Rd.bind]
    cases Rd.bit e w s stop addr with
    | error => rfl
    | ok x =>
      simp only
      rw [bits_append e ws us]
      show Rd.bind (Rd.bind (Rd.bits e ws) fun a => Rd.bind (Rd.bits e us) fun b => Rd.pure (a ++ b)) _ _ _ _ = _
      rw [Rd.bind, Rd.bind, Rd.bind]
      cases Rd.bits e ws s stop x.2 with
      | error => rfl
      | ok y =>
        simp only [Rd.pure]
        rw [Rd.bind, Rd.bind]
        cases Rd.bits e us s stop y.2 <;> rfl

section
open MpegTs

/-- Packets of ISO 13818-1 without clocks: behind the length of the adaptation field and its flags there may be a countdown, then anything. -/
def tsAdaptation (a : Adaptation) (stuffing : Bytes) : Bytes :=
  beBytes 1 a.length ++ (beBytes 1 (joinBE [1, 1, 1, 1, 1, 1, 1, 1] a.flags) ++ (a.clocks.flatMap (beBytes 1) ++ stuffing))

/-- The flags of the clocks are 0; the length counts all behind it. -/
inductive TsAdaptation : Adaptation → Bytes → Prop where
  | plain (f1 f2 f3 f7 f8 : Nat) (b : Bytes) : Fit [1, 1, 1, 1, 1, 1, 1, 1] [f1, f2, f3, 0, 0, 0, f7, f8] → b.length + 1 < 256 →
      TsAdaptation ⟨b.length + 1, [f1, f2, f3, 0, 0, 0, f7, f8], [], ofBytesBE b⟩ b
  | splice (f1 f2 f3 f7 f8 c : Nat) (b : Bytes) : Fit [1, 1, 1, 1, 1, 1, 1, 1] [f1, f2, f3, 0, 0, 1, f7, f8] → c < 256 → b.length + 2 < 256 →
      TsAdaptation ⟨b.length + 2, [f1, f2, f3, 0, 0, 1, f7, f8], [c], ofBytesBE b⟩ b

theorem reads_stuffing (length w : Nat) (b : Bytes) (h : (length + 1) * 8 = 16 + w + 8 * b.length) : Reads (stuffingOf length w) (ofBytesBE b) b := by
  unfold stuffingOf
  by_cases hb : b = []
  · subst hb
    rw [if_pos (.inr (by simpa using h))]
    exact reads_pure _
  · have := List.length_pos_iff.2 hb
    have e : (length + 1) * 8 - (16 + w) = 8 * b.length := by omega
    rw [if_neg (by omega), if_neg (by omega), e]
    exact reads_be_any b.length b rfl this

theorem reads_ts_adaptation {a : Adaptation} {b : Bytes} (g : TsAdaptation a b) : Reads adaptation a (tsAdaptation a b) := by
  cases g with
  | plain f1 f2 f3 f7 f8 _ hf hl =>
    refine Reads.bind (reads_int_be 1 _ (by omega) (by omega)) ?_
    refine Reads.bind (reads_packed_be 1 _ _ (by omega) rfl hf) ?_
    refine Reads.bind (v := []) (reads_rpure _) ?_
    exact Reads.map (f := fun x => Adaptation.mk (b.length + 1) [f1, f2, f3, 0, 0, 0, f7, f8] [] x) (reads_stuffing (b.length + 1) 0 b (by omega))
  | splice f1 f2 f3 f7 f8 c _ hf hc hl =>
    refine Reads.bind (reads_int_be 1 _ (by omega) (by omega)) ?_
    refine Reads.bind (reads_packed_be 1 _ _ (by omega) rfl hf) ?_
    refine Reads.bind (v := [c]) (xs := [c].flatMap (beBytes 1)) ?_ ?_
    · have := reads_packed_be 1 [8] [c] (by omega) rfl ⟨by omega, trivial⟩
      have e : joinBE [8] [c] = c := by simp [joinBE]; omega
      rw [e] at this
      rw [show [c].flatMap (beBytes 1) = beBytes 1 c by simp]
      exact this
    · exact Reads.map (f := fun x => Adaptation.mk (b.length + 2) [f1, f2, f3, 0, 0, 1, f7, f8] [c] x) (reads_stuffing (b.length + 2) 8 b (by omega))

/-- A packet of 188 bytes (204 with error correction, which `C144_error_wrong` is about): an adaptation field, a payload or both fill it. -/
inductive TsContent : Option Adaptation → Option Bytes → Bytes → Prop where
  | payload (b : Bytes) : b.length = 184 → TsContent none (some b) b
  | adaptation (a : Adaptation) (x : Bytes) : TsAdaptation a x → a.length = 183 → TsContent (some a) none (tsAdaptation a x)
  | both (a : Adaptation) (x b : Bytes) : TsAdaptation a x → a.length + 1 + b.length = 184 → b ≠ [] → TsContent (some a) (some b) (tsAdaptation a x ++ b)

/-- Error correction, of 16 bytes, follows if the first flag is set. -/
def TsCorrection (error : Nat) : Option Bytes → Prop
  | none => error = 0
  | some c => error = 1 ∧ c.length = 16

structure TsGood (p : Packet) (content : Bytes) : Prop where
  flags : p.error < 2 ∧ p.start < 2 ∧ p.priority < 2 ∧ p.pid < 2 ^ 13 ∧ p.scrambling < 4 ∧ p.counter < 16
  content : TsContent p.adaptation p.payload content
  correction : TsCorrection p.error p.correction

def flagOf {α : Type} : Option α → Nat
  | none => 0
  | some _ => 1

def tsPacket (p : Packet) (content : Bytes) : Bytes :=
  beBytes 1 0x47 ++ (beBytes 2 (joinBE [1, 1, 1, 13] [p.error, p.start, p.priority, p.pid]) ++
  (beBytes 1 (joinBE [2, 1, 1, 4] [p.scrambling, flagOf p.adaptation, flagOf p.payload, p.counter]) ++ (content ++ p.correction.getD [])))

theorem tsAdaptation_length {a : Adaptation} {x : Bytes} (g : TsAdaptation a x) : (tsAdaptation a x).length = a.length + 1 := by
  cases g <;> simp [tsAdaptation, beBytes_length] <;> omega

theorem reads_ts_correction (error : Nat) (c : Option Bytes) (h : TsCorrection error c) : Reads (correctionOf error) c (c.getD []) := by
  unfold correctionOf
  cases c with
  | none => rw [if_pos (show error = 0 from h)]; exact reads_pure _
  | some c =>
    rw [h.1, if_neg (by decide)]
    exact Reads.map (f := some) (reads_raw_n 16 c h.2 (by omega))

theorem reads_ts_packet (p : Packet) (content : Bytes) (g : TsGood p content) (hs : p.stamp = []) : Reads (packet false) p (tsPacket p content) := by
  obtain ⟨stamp, error, start, priority, pid, scrambling, counter, ad, payload, correction⟩ := p
  obtain ⟨⟨f1, f2, f3, f4, f5, f6⟩, hc, hx⟩ := g
  simp only at f1 f2 f3 f4 f5 f6 hc hx hs
  subst hs
  have hx' := reads_ts_correction error correction hx
  have body : ReadsAll (Macho.measured (adaptationOf (flagOf ad)) (rest (flagOf payload) error)) (ad, payload, correction) (content ++ correction.getD []) ∧ content.length = 184 := by
    cases hc with
    | payload b hb =>
      refine ⟨Reads.all ?_, hb⟩
      rw [← List.nil_append (content ++ _)]
      refine Reads.measured (v := none) (by rw [flagOf, adaptationOf, if_pos rfl]; exact reads_pure _) ?_
      refine Reads.bind (v := some content) ?_ ?_
      · rw [flagOf, payloadOf, if_neg (by decide), if_neg (by simp)]
        exact Reads.map (f := some) (reads_raw_n _ content (by simpa using hb) (by simp))
      · exact Reads.map (f := fun c => ((none : Option Adaptation), some content, c)) hx'
    | adaptation a x ha hl =>
      have hlen := tsAdaptation_length ha
      refine ⟨Reads.all ?_, by omega⟩
      refine Reads.measured (v := some a) (by rw [flagOf, adaptationOf, if_neg (by decide)]; exact Reads.map (f := some) (reads_ts_adaptation ha)) ?_
      rw [← List.nil_append (correction.getD [])]
      refine Reads.bind (v := none) (by rw [flagOf, payloadOf, if_pos rfl]; exact reads_pure _) ?_
      exact Reads.map (f := fun c => (some a, (none : Option Bytes), c)) hx'
    | both a x b ha hl hb =>
      have hlen := tsAdaptation_length ha
      have := List.length_pos_iff.2 hb
      refine ⟨Reads.all ?_, by rw [List.length_append]; omega⟩
      rw [List.append_assoc]
      refine Reads.measured (v := some a) (by rw [flagOf, adaptationOf, if_neg (by decide)]; exact Reads.map (f := some) (reads_ts_adaptation ha)) ?_
      refine Reads.bind (v := some b) ?_ ?_
      · have e : 8 * (tsAdaptation a x).length / 8 = a.length + 1 := by omega
        rw [flagOf, payloadOf, if_neg (by decide), if_neg (by omega), e]
        exact Reads.map (f := some) (reads_raw_n _ b (by omega) (by omega))
      · exact Reads.map (f := fun c => (some a, some b, c)) hx'
  have hsize : restSize error = (content ++ correction.getD []).length := by
    rw [List.length_append, body.2, restSize]
    cases correction with
    | none => rw [if_pos (show error = 0 from hx)]; rfl
    | some c => rw [hx.1, if_neg (by decide), Option.getD_some, hx.2]
  show Reads (stampOf false >>= _) _ _
  rw [← List.nil_append (tsPacket _ _)]
  refine Reads.bind (v := []) (reads_pure _) ?_
  refine Reads.bind (reads_int_be 1 0x47 (by omega) (by omega)) ?_
  rw [if_neg (by decide)]
  refine Reads.bind (reads_packed_be 2 _ _ (by omega) rfl ⟨f1, f2, f3, f4, trivial⟩) ?_
  have ha : flagOf ad < 2 := by cases ad <;> simp [flagOf]
  have hp : flagOf payload < 2 := by cases payload <;> simp [flagOf]
  refine Reads.bind (reads_packed_be 1 _ _ (by omega) rfl ⟨f5, ha, hp, f6, trivial⟩) ?_
  exact Reads.map (f := fun x : Option Adaptation × Option Bytes × Option Bytes => Packet.mk [] error start priority pid scrambling counter x.1 x.2.1 x.2.2) (body.1.within _ hsize)

/-- The search for the synchronization byte. -/
theorem find_sync {data : Bytes} {s : InputStream} (hs : stringInputStream data = .ok s) (k stop : Nat) (junk : Bytes) (rest : Bytes) (hj : (0x47 : UInt8) ∉ junk)
    (hl : junk.length < 208) (hp : junk ++ 0x47 :: rest <+: data.drop k) : findSync s stop (8 * k) = .ok (some (8 * junk.length), 8 * k) := by
  have hlen := hp.length_le
  rw [List.length_append, List.length_cons, List.length_drop] at hlen
  obtain ⟨t, ht⟩ := hp
  have hat : ∀ j, k ≤ j → j < k + junk.length → ¬ [(0x47 : UInt8)] <+: data.drop j := by
    intro j h1 h2 h
    obtain ⟨i, rfl⟩ := Nat.exists_eq_add_of_le h1
    rw [← List.drop_drop, ← ht, List.append_assoc, List.drop_append_of_le_length (by omega)] at h
    have hne : junk.drop i ≠ [] := fun h0 => by have := congrArg List.length h0; simp at this; omega
    obtain ⟨y, l, hy⟩ := List.exists_cons_of_ne_nil hne
    rw [hy, List.cons_append, List.cons_prefix_cons] at h
    exact hj (h.1 ▸ List.mem_of_mem_drop (hy ▸ List.mem_cons_self))
  have hhere : [(0x47 : UInt8)] <+: data.drop (k + junk.length) := by
    rw [← List.drop_drop, ← ht, List.append_assoc, List.drop_left]
    exact ⟨rest ++ t, rfl⟩
  obtain ⟨r, h1, h2⟩ := _root_.Props.C05_searchBytes data [0x47] s hs (by simp) k (some (8 * k + 208 * 8)) _ rfl (by omega)
  rw [findSync]
  rw [Option.map_some] at h1
  have e : (Int.ofNat (8 * k + 208 * 8)) = ((8 * k + 208 * 8 : Nat) : Int) := rfl
  rw [e] at h1
  rw [h1]
  cases r with
  | none =>
    exfalso
    refine h2 (k + junk.length) (by omega) ?_ hhere
    simp only [List.length_singleton]
    omega
  | some a =>
    obtain ⟨j, rfl, hj1, hj2, hj3, hj4⟩ := h2
    have : j = k + junk.length := by
      rcases Nat.lt_trichotomy j (k + junk.length) with h | h | h
      · exact absurd hj3 (hat j hj1 h)
      · exact h
      · exact absurd hhere (hj4 _ (by omega) h)
    subst this
    simp only [Except.ok.injEq, Prod.mk.injEq, Option.some.injEq, and_true]
    omega

theorem reads_ts_round (junk : Bytes) (p : Packet) (content : Bytes) (hj : (0x47 : UInt8) ∉ junk) (hl : junk.length < 208) (g : TsGood p content) (hs : p.stamp = []) :
    Reads (MpegTs.round false) (junk, p) (junk ++ tsPacket p content) := by
  have r : Reads (junkOf false (some (8 * junk.length)) >>= fun j => packet false >>= fun p => Pure.pure (j, p)) (junk, p) (junk ++ tsPacket p content) := by
    refine Reads.bind (v := junk) ?_ (Reads.map (f := fun p => (junk, p)) (reads_ts_packet p content g hs))
    unfold junkOf
    by_cases hb : junk = []
    · subst hb
      exact reads_pure _
    · have := List.length_pos_iff.2 hb
      have e : 8 * junk.length / 8 = junk.length := by omega
      have h8 : (if false = true then 32 else 0) < 8 * junk.length := by simp; omega
      simp only
      rw [if_pos h8, e]
      exact reads_raw junk hb
  intro data s hst k stop hp hstop
  have hp' := hp
  rw [show tsPacket p content = 0x47 :: (beBytes 2 (joinBE [1, 1, 1, 13] [p.error, p.start, p.priority, p.pid]) ++
    (beBytes 1 (joinBE [2, 1, 1, 4] [p.scrambling, flagOf p.adaptation, flagOf p.payload, p.counter]) ++ (content ++ p.correction.getD []))) from rfl] at hp'
  show Rd.bind findSync _ s stop (8 * k) = _
  rw [Rd.bind, find_sync hst k stop junk _ hj hl hp']
  exact r data s hst k stop hp hstop

/-- **C144** (partial: no clocks, see `C144_clock_wrong`; adaptation fields are not empty, see `C144_empty_wrong`; no time stamps): all packets of a transport stream are read as they
were written, and damaged bytes between them (up to 207, without a synchronization byte) are skipped. -/
theorem C144_stream_partial (l : List (Bytes × Packet × Bytes)) (h : ∀ x ∈ l, (0x47 : UInt8) ∉ x.1 ∧ x.1.length < 208 ∧ TsGood x.2.1 x.2.2 ∧ x.2.1.stamp = []) (fuel : Nat)
    (hf : l.length < fuel) (s : InputStream) (hs : stringInputStream (l.flatMap fun x => x.1 ++ tsPacket x.2.1 x.2.2) = .ok s) :
    file false fuel s (8 * (l.flatMap fun x => x.1 ++ tsPacket x.2.1 x.2.2).length) 0 =
      .ok (l.map fun x => (x.1, x.2.1), 8 * (l.flatMap fun x => x.1 ++ tsPacket x.2.1 x.2.2).length) := by
  have r : ∀ (l : List (Bytes × Packet × Bytes)) (n : Nat), l.length < n → (∀ x ∈ l, (0x47 : UInt8) ∉ x.1 ∧ x.1.length < 208 ∧ TsGood x.2.1 x.2.2 ∧ x.2.1.stamp = []) →
      ReadsAll (Rd.whileNotEof (MpegTs.round false) n) (l.map fun x => (x.1, x.2.1)) (l.flatMap fun x => x.1 ++ tsPacket x.2.1 x.2.2) := by
    intro l
    induction l with
    | nil =>
      intro n hn _
      obtain ⟨m, rfl⟩ : ∃ m, n = m + 1 := ⟨n - 1, by simp at hn; omega⟩
      exact ReadsAll.at_eof (Reads.all (reads_rpure _))
    | cons x l ih =>
      intro n hn h
      obtain ⟨m, rfl⟩ : ∃ m, n = m + 1 := ⟨n - 1, by simp at hn; omega⟩
      have i := ih m (by simpa using hn) fun y hy => h y (List.mem_cons_of_mem _ hy)
      obtain ⟨h1, h2, h3, h4⟩ := h x List.mem_cons_self
      rw [List.flatMap_cons, List.map_cons]
      refine ReadsAll.not_eof (fun h => by simpa [tsPacket, beBytes_length] using congrArg List.length h) ?_
      exact Reads.bind_all (reads_ts_round _ _ _ h1 h2 h3 h4) (i.map fun xs => (x.1, x.2.1) :: xs)
  have := r l fuel hf h _ s hs 0 (by simp)
  rw [Nat.zero_add] at this
  exact this

/-- A clock of the standard: 33 bits, 6 reserved ones, 9 bits. -/
def tsClock (base reserved ext r x : Nat) : Bytes := beBytes (6 + r) (joinBE [33, 6, 9, 8 * r] [base, reserved, ext, x])

/-- Violation: the 6 reserved bits of a clock are forgotten, so the lower part of every clock is wrong: it is made of the reserved bits and the 3 highest bits; all that follows is
6 bits too early. -/
theorem C144_clock_wrong (base reserved ext x r : Nat) (hb : base < 2 ^ 33) (hr : reserved < 64) (he : ext < 512) (hx : x < 2 ^ (8 * r)) (hl : r + 7 < 256) :
    Reads adaptation ⟨r + 7, [0, 0, 0, 1, 0, 0, 0, 0], [base, reserved * 8 + ext / 64], ext % 64 * 2 ^ (8 * r) + x⟩
      (beBytes 1 (r + 7) ++ (beBytes 1 (joinBE [1, 1, 1, 1, 1, 1, 1, 1] [0, 0, 0, 1, 0, 0, 0, 0]) ++ tsClock base reserved ext r x)) := by
  refine Reads.bind (reads_int_be 1 _ (by omega) (by omega)) ?_
  refine Reads.bind (reads_packed_be 1 _ _ (by omega) rfl (by simp [Fit])) ?_
  have hP := Nat.two_pow_pos (8 * r)
  have hlast : ext % 64 * 2 ^ (8 * r) + x < 2 ^ (6 + 8 * r) := by
    rw [Nat.pow_add]
    have := Nat.mul_le_mul_right (2 ^ (8 * r)) (show ext % 64 + 1 ≤ 64 by omega)
    rw [Nat.add_mul] at this
    omega
  have hj : joinBE [33, 6, 9, 8 * r] [base, reserved, ext, x] = joinBE [33, 9, 6 + 8 * r] [base, reserved * 8 + ext / 64, ext % 64 * 2 ^ (8 * r) + x] := by
    have e1 : base % 2 ^ 33 = base := Nat.mod_eq_of_lt hb
    have e2 : reserved % 2 ^ 6 = reserved := Nat.mod_eq_of_lt hr
    have e3 : ext % 2 ^ 9 = ext := Nat.mod_eq_of_lt he
    have e4 : x % 2 ^ (8 * r) = x := Nat.mod_eq_of_lt hx
    have e5 : (reserved * 8 + ext / 64) % 2 ^ 9 = reserved * 8 + ext / 64 := Nat.mod_eq_of_lt (by omega)
    have e6 : (ext % 64 * 2 ^ (8 * r) + x) % 2 ^ (6 + 8 * r) = ext % 64 * 2 ^ (8 * r) + x := Nat.mod_eq_of_lt hlast
    simp only [joinBE, List.sum_cons, List.sum_nil, e1, e2, e3, e4, e5, e6]
    simp only [Nat.add_zero, Nat.pow_add, Nat.pow_zero, Nat.mul_one]
    have hext : ext = ext / 64 * 64 + ext % 64 := by omega
    generalize 2 ^ (8 * r) = P at *
    generalize ext / 64 = q at *
    generalize ext % 64 = m at *
    subst hext
    ring
  have h := reads_packed_be (6 + r) [33, 9, 6 + 8 * r] [base, reserved * 8 + ext / 64, ext % 64 * 2 ^ (8 * r) + x] (by omega) (by simp; omega)
    ⟨hb, by omega, hlast, trivial⟩
  rw [← hj] at h
  intro data s hs k stop hp hst
  have h' := h data s hs k stop hp hst
  have hw : clockWidths [0, 0, 0, 1, 0, 0, 0, 0] = [33, 9] := rfl
  rw [hw]
  rw [show [33, 9, 6 + 8 * r] = [33, 9] ++ [6 + 8 * r] from rfl, bits_append] at h'
  change Rd.bind _ _ s stop (8 * k) = _ at h'
  change Rd.bind _ _ s stop (8 * k) = _
  rw [Rd.bind] at h' ⊢
  cases hc : Rd.bits .big [33, 9] s stop (8 * k) with
  | error e => rw [hc] at h'; cases h'
  | ok c =>
    rw [hc] at h'
    simp only at h' ⊢
    change Rd.bind (Rd.bind (Rd.bit .big (6 + 8 * r)) _) _ s stop c.2 = _ at h'
    have hstuff : stuffingOf (r + 7) ([33, 9] : List Nat).sum = Rd.bit .big (6 + 8 * r) := by
      have e : (r + 7 + 1) * 8 - (16 + ([33, 9] : List Nat).sum) = 6 + 8 * r := by simp; omega
      rw [stuffingOf, if_neg (by simp; omega), if_neg (by simp; omega), e]
    rw [hstuff]
    change Rd.bind (Rd.bit .big (6 + 8 * r)) _ s stop c.2 = _
    rw [Rd.bind, Rd.bind] at h'
    rw [Rd.bind]
    cases hd : Rd.bit .big (6 + 8 * r) s stop c.2 with
    | error e => rw [hd] at h'; cases h'
    | ok d =>
      rw [hd] at h'
      obtain ⟨c1, c2⟩ := c
      obtain ⟨d1, d2⟩ := d
      have h2 : (Except.ok (c1 ++ [d1], d2) : Except PyErr (List Nat × Nat)) = .ok ([base, reserved * 8 + ext / 64, ext % 64 * 2 ^ (8 * r) + x], 8 * (k + (tsClock base reserved ext r x).length)) := h'
      simp only [Except.ok.injEq, Prod.mk.injEq] at h2
      obtain ⟨h3, h4⟩ := h2
      have h5 := List.append_inj' (s₁ := c1) (s₂ := [base, reserved * 8 + ext / 64]) (t₁ := [d1]) (t₂ := [ext % 64 * 2 ^ (8 * r) + x]) h3 rfl
      obtain ⟨h6, h7⟩ := h5
      simp only [List.cons.injEq, and_true] at h7
      show Except.ok (Adaptation.mk (r + 7) _ c1 d1, d2) = _
      rw [h6, h7, h4]

/-- Violation: an adaptation field of length 0 (one byte that fills a packet of 183 bytes of payload) is taken to have flags: the first byte of the payload is lost to them. -/
theorem C144_empty_wrong (f1 f2 f3 f7 f8 : Nat) (hf : Fit [1, 1, 1, 1, 1, 1, 1, 1] [f1, f2, f3, 0, 0, 0, f7, f8]) :
    Reads adaptation ⟨0, [f1, f2, f3, 0, 0, 0, f7, f8], [], 0⟩ ([0] ++ beBytes 1 (joinBE [1, 1, 1, 1, 1, 1, 1, 1] [f1, f2, f3, 0, 0, 0, f7, f8])) := by
  rw [show ([0] : Bytes) = beBytes 1 0 from rfl, ← List.append_nil (beBytes 1 (joinBE _ _))]
  refine Reads.bind (reads_int_be 1 0 (by omega) (by omega)) ?_
  refine Reads.bind (reads_packed_be 1 _ _ (by omega) rfl hf) ?_
  rw [← List.nil_append ([] : Bytes)]
  refine Reads.bind (v := []) (reads_rpure _) ?_
  rw [← List.nil_append ([] : Bytes)]
  refine Reads.bind (v := 0) ?_ (reads_pure _)
  rw [stuffingOf, if_pos (.inl rfl)]
  exact reads_pure _

/-- Violation: the standard's "transport error" bit only says that a packet is damaged, but the code takes it as 16 bytes of error correction behind the packet: these are the first 16
bytes `next` of what follows, so the synchronization is lost. -/
theorem C144_error_wrong (p : Packet) (content next : Bytes) (hf : p.error = 1 ∧ p.start < 2 ∧ p.priority < 2 ∧ p.pid < 2 ^ 13 ∧ p.scrambling < 4 ∧ p.counter < 16)
    (hc : TsContent p.adaptation p.payload content) (h0 : p.correction = none) (hs : p.stamp = []) (hn : next.length = 16) :
    Reads (packet false) { p with correction := some next } (tsPacket p content ++ next) := by
  have h := reads_ts_packet { p with correction := some next } content ⟨⟨by simp [hf.1], hf.2⟩, hc, hf.1, hn⟩ hs
  have e : tsPacket { p with correction := some next } content = tsPacket p content ++ next := by
    simp only [tsPacket, h0, Option.getD_some, Option.getD_none, List.append_nil, List.append_assoc]
  rw [e] at h
  exact h

/-- Violation: a stream with time stamps (m2ts) is not read again after damaged bytes: the time stamp of the next packet is taken to be behind its synchronization byte. -/
theorem C144_m2ts_wrong (junk stamp : Bytes) (hj : (0x47 : UInt8) ∉ junk ++ stamp) (hs : stamp.length = 4) (h0 : junk ≠ []) (hl : junk.length < 200) (a b c x : UInt8)
    (hx : x ≠ 0x47) (rest : Bytes) : Fails (MpegTs.round true) .parser (junk ++ stamp ++ 0x47 :: a :: b :: c :: x :: rest) := by
  have := List.length_pos_iff.2 h0
  intro data s hst k stop hp hstop
  have hp' := hp
  have hlj : (junk ++ stamp).length = junk.length + 4 := by rw [List.length_append, hs]
  show Rd.bind findSync _ s stop (8 * k) = _
  rw [Rd.bind, find_sync hst k stop (junk ++ stamp) _ hj (by omega) hp']
  have r : Fails (junkOf true (some (8 * (junk ++ stamp).length)) >>= fun j => packet true >>= fun p => Pure.pure (j, p)) .parser (junk ++ stamp ++ 0x47 :: a :: b :: c :: x :: rest) := by
    refine Reads.fails (v := junk ++ stamp) ?_ ?_
    · have e : 8 * (junk ++ stamp).length / 8 = (junk ++ stamp).length := by omega
      rw [junkOf, if_pos (by simp; omega), e]
      exact reads_raw _ (List.ne_nil_of_length_pos (by omega))
    · refine Fails.bind ?_
      have hst : Reads (stampOf true) (splitBE [2, 30] (ofBytesBE [0x47, a, b, c])) [0x47, a, b, c] := reads_bits_be [2, 30] [0x47, a, b, c] (by simp) rfl
      refine Reads.fails (xs := [0x47, a, b, c]) (ys := x :: rest) hst ?_
      refine Reads.fails (xs := [x]) (ys := rest) (reads_byte x .big (by decide)) ?_
      have : x.toNat ≠ 0x47 := fun h => hx (UInt8.toNat_inj.1 h)
      rw [if_pos this]
      intro _ _ _ _ _ _ _
      rfl
  exact r data s hst k stop hp hstop

/-- Two packets, the second behind 3 damaged bytes. -/
example : ∀ x ∈ [(([] : Bytes), Packet.mk [] 0 1 0 0 0 3 none (some (List.replicate 184 7)) none, List.replicate 184 (7 : UInt8)),
    ([1, 2, 3], ⟨[], 0, 0, 0, 0x100, 0, 4, some ⟨182, [0, 0, 0, 0, 0, 0, 0, 0], [], ofBytesBE (List.replicate 181 255)⟩, some [9], none⟩,
      tsAdaptation ⟨182, [0, 0, 0, 0, 0, 0, 0, 0], [], ofBytesBE (List.replicate 181 255)⟩ (List.replicate 181 255) ++ [9])],
    (0x47 : UInt8) ∉ x.1 ∧ x.1.length < 208 ∧ TsGood x.2.1 x.2.2 ∧ x.2.1.stamp = [] := by
  intro x hx
  rcases List.mem_cons.1 hx with rfl | hx
  · exact ⟨by simp, by simp, ⟨by decide, .payload _ List.length_replicate, rfl⟩, rfl⟩
  · rcases List.mem_cons.1 hx with rfl | hx
    · refine ⟨by decide, by simp, ⟨by decide, .both _ _ [9] ?_ (by simp) (by simp), rfl⟩, rfl⟩
      have := TsAdaptation.plain 0 0 0 0 0 (List.replicate 181 255) (by simp [Fit]) (by rw [List.length_replicate]; omega)
      rw [List.length_replicate] at this
      exact this
    · cases hx

end
end Hachoir.Props
