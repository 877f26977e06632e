import Verif.Formats.GitDelta
import Verif.Formats.VarIntLemmas
import Verif.Spec.GitDelta
import Verif.Props.InputStream

/-!
# C56: the instructions of a git delta
-/

set_option linter.unusedVariables false

namespace Hachoir.Props
open Hachoir Hachoir.Stream Hachoir.Formats Spec

theorem prefix_drop_append {xs ys data : Bytes} {k : Nat} (h : (xs ++ ys) <+: data.drop k) :
    ys <+: data.drop (k + xs.length) := by
  obtain ⟨t, ht⟩ := h
  exact ⟨t, by rw [← List.drop_drop, ← ht, List.append_assoc, List.drop_left]⟩

theorem deltaOperand_eq (data : Bytes) (s : InputStream) (hs : stringInputStream data = .ok s)
    (o : Option UInt8) (f sh acc k : Nat) (hf : f ≠ 0 ↔ o.isSome) (rest : Bytes)
    (hp : (o.toList ++ rest) <+: data.drop k) :
    deltaOperand s f sh acc (8 * k : Nat) =
      .ok (acc ||| (byteOf o <<< sh), ((8 * (k + o.toList.length) : Nat) : Int)) ∧
    rest <+: data.drop (k + o.toList.length) := by
  refine ⟨?_, prefix_drop_append hp⟩
  unfold deltaOperand
  cases o with
  | none =>
    rw [if_neg (by simp at hf; simpa using hf)]
    simp [byteOf]
  | some b =>
    rw [if_pos (by simpa using hf), readBits_byte data s hs k .big (by simp)]
    obtain ⟨t, ht⟩ := hp
    rw [← ht]
    simp only [Option.toList_some, List.cons_append, addr_succ]
    rfl

theorem or4 (a b c d : Nat) (hb : b < 256) (hc : c < 256) (hd : d < 256) :
    (((0 ||| a <<< 24) ||| b <<< 16) ||| c <<< 8) ||| d <<< 0 = d + 256 * c + 65536 * b + 16777216 * a := by
  have h1 : b <<< 16 ||| a <<< 24 = 65536 * b + 16777216 * a := by
    rw [or_shift _ a 24 (by rw [Nat.shiftLeft_eq]; omega), Nat.shiftLeft_eq]; omega
  have h2 : a <<< 24 ||| b <<< 16 = 65536 * b + 16777216 * a := by rw [Nat.or_comm, h1]
  have h3 : (65536 * b + 16777216 * a) = (256 * b + 65536 * a) <<< 8 <<< 0 + 0 := by
    rw [Nat.shiftLeft_eq, Nat.shiftLeft_eq]; omega
  rw [Nat.zero_or, h2, Nat.shiftLeft_zero]
  have h4 : (65536 * b + 16777216 * a) ||| c <<< 8 = 256 * c + 65536 * b + 16777216 * a := by
    rw [show 65536 * b + 16777216 * a = (b + 256 * a) <<< 16 by rw [Nat.shiftLeft_eq]; omega,
      Nat.or_comm, or_shift _ _ 16 (by rw [Nat.shiftLeft_eq]; omega), Nat.shiftLeft_eq]
    omega
  rw [h4, show 256 * c + 65536 * b + 16777216 * a = (c + 256 * b + 65536 * a) <<< 8 by
      rw [Nat.shiftLeft_eq]; omega, Nat.or_comm, or_shift _ _ 8 (by omega)]
  omega

theorem or3 (b c d : Nat) (hc : c < 256) (hd : d < 256) :
    ((0 ||| b <<< 16) ||| c <<< 8) ||| d <<< 0 = d + 256 * c + 65536 * b := by
  have := or4 0 b c d
  rw [Nat.zero_or, Nat.shiftLeft_zero]
  have h4 : b <<< 16 ||| c <<< 8 = 256 * c + 65536 * b := by
    rw [Nat.or_comm, or_shift _ _ 16 (by rw [Nat.shiftLeft_eq]; omega), Nat.shiftLeft_eq]
    omega
  rw [h4, show 256 * c + 65536 * b = (c + 256 * b) <<< 8 by rw [Nat.shiftLeft_eq]; omega,
    Nat.or_comm, or_shift _ _ 8 (by omega)]
  omega

theorem byteOf_lt (o : Option UInt8) : byteOf o < 256 := by
  cases o with
  | none => simp [byteOf]
  | some b => exact b.toNat_lt

theorem head_bits_bool : ∀ a b c d e f g : Bool, ∀ h : Nat,
    h = (128 + (if a then 64 else 0) + (if b then 32 else 0) + (if c then 16 else 0) + (if d then 8 else 0) +
      (if e then 4 else 0) + (if f then 2 else 0) + (if g then 1 else 0)) % 2 ^ 8 →
    h / 2 ^ (8 - 0 - 1) % 2 ^ 1 ≠ 0 ∧ (h / 2 ^ (8 - 1 - 1) % 2 ^ 1 ≠ 0 ↔ a) ∧ (h / 2 ^ (8 - 2 - 1) % 2 ^ 1 ≠ 0 ↔ b) ∧
    (h / 2 ^ (8 - 3 - 1) % 2 ^ 1 ≠ 0 ↔ c) ∧ (h / 2 ^ (8 - 4 - 1) % 2 ^ 1 ≠ 0 ↔ d) ∧ (h / 2 ^ (8 - 5 - 1) % 2 ^ 1 ≠ 0 ↔ e) ∧
    (h / 2 ^ (8 - 6 - 1) % 2 ^ 1 ≠ 0 ↔ f) ∧ (h / 2 ^ (8 - 7 - 1) % 2 ^ 1 ≠ 0 ↔ g) := by
  intro a b c d e f g h hh
  subst hh
  revert a b c d e f g
  decide +kernel

/-- The parser reads the bytes in storage order but hands them out from the highest place. -/
theorem deltaInstruction_copy (data : Bytes) (s : InputStream) (hs : stringInputStream data = .ok s)
    (k : Nat) (o1 o2 o3 o4 s1 s2 s3 : Option UInt8)
    (hp : (UInt8.ofNat (128 + flag s1 64 + flag s2 32 + flag s3 16 + flag o1 8 + flag o2 4 + flag o3 2 + flag o4 1) ::
      (o1.toList ++ o2.toList ++ o3.toList ++ o4.toList ++ s1.toList ++ s2.toList ++ s3.toList)) <+: data.drop k) :
    deltaInstruction s (8 * k : Nat) =
      .ok (.copy (byteOf s3 + 256 * byteOf s2 + 65536 * byteOf s1)
        (byteOf o4 + 256 * byteOf o3 + 65536 * byteOf o2 + 16777216 * byteOf o1),
        8 * (1 + (o1.toList ++ o2.toList ++ o3.toList ++ o4.toList ++ s1.toList ++ s2.toList ++ s3.toList).length)) := by
  obtain ⟨t, ht⟩ := hp
  rw [List.cons_append] at ht
  obtain ⟨b, hb⟩ : ∃ b, UInt8.ofNat (128 + flag s1 64 + flag s2 32 + flag s3 16 + flag o1 8 + flag o2 4 + flag o3 2 + flag o4 1) = b :=
    ⟨_, rfl⟩
  rw [hb] at ht
  have hbn := congrArg UInt8.toNat hb
  rw [UInt8.toNat_ofNat'] at hbn
  have hdrop := drop_succ_of_cons data k b _ ht.symm
  obtain ⟨g0, g1, g2, g3, g4, g5, g6, g7⟩ :=
    head_bits_bool s1.isSome s2.isSome s3.isSome o1.isSome o2.isSome o3.isSome o4.isSome b.toNat hbn.symm
  have bit : ∀ i : Nat, i < 8 → ∀ ad : Int, ad = ((8 * k + i : Nat) : Int) →
      readBits s ad 1 .big = .ok (b.toNat / 2 ^ (8 - i - 1) % 2 ^ 1) := by
    intro i hi ad had
    rw [readBits_high data s hs k i 1 (by omega) (by omega) ad had, ← ht]
  have hp0 : (o1.toList ++ (o2.toList ++ (o3.toList ++ (o4.toList ++ (s1.toList ++ (s2.toList ++ (s3.toList ++ []))))))) <+:
      data.drop (k + 1) := by
    rw [hdrop]
    refine ⟨t, ?_⟩
    simp only [List.append_assoc, List.append_nil]
  obtain ⟨r1, hp1⟩ := deltaOperand_eq data s hs o1 _ 24 0 (k + 1) g4 _ hp0
  obtain ⟨r2, hp2⟩ := deltaOperand_eq data s hs o2 _ 16 (0 ||| byteOf o1 <<< 24) _ g5 _ hp1
  obtain ⟨r3, hp3⟩ := deltaOperand_eq data s hs o3 _ 8 (0 ||| byteOf o1 <<< 24 ||| byteOf o2 <<< 16) _ g6 _ hp2
  obtain ⟨r4, hp4⟩ := deltaOperand_eq data s hs o4 _ 0 (0 ||| byteOf o1 <<< 24 ||| byteOf o2 <<< 16 ||| byteOf o3 <<< 8) _ g7 _ hp3
  obtain ⟨r5, hp5⟩ := deltaOperand_eq data s hs s1 _ 16 0 _ g1 _ hp4
  obtain ⟨r6, hp6⟩ := deltaOperand_eq data s hs s2 _ 8 (0 ||| byteOf s1 <<< 16) _ g2 _ hp5
  obtain ⟨r7, hp7⟩ := deltaOperand_eq data s hs s3 _ 0 (0 ||| byteOf s1 <<< 16 ||| byteOf s2 <<< 8) _ g3 _ hp6
  unfold deltaInstruction deltaOperands
  simp only [bit 0 (by omega) _ (by omega : ((8 * k : Nat) : Int) = _), bit 1 (by omega) _ (by omega : ((8 * k : Nat) : Int) + 1 = _),
    bit 2 (by omega) _ (by omega : ((8 * k : Nat) : Int) + 2 = _), bit 3 (by omega) _ (by omega : ((8 * k : Nat) : Int) + 3 = _),
    bit 4 (by omega) _ (by omega : ((8 * k : Nat) : Int) + 4 = _), bit 5 (by omega) _ (by omega : ((8 * k : Nat) : Int) + 5 = _),
    bit 6 (by omega) _ (by omega : ((8 * k : Nat) : Int) + 6 = _), bit 7 (by omega) _ (by omega : ((8 * k : Nat) : Int) + 7 = _),
    bind, Except.bind, addr_succ]
  rw [if_pos g0, r1]
  simp only
  rw [r2]
  simp only
  rw [r3]
  simp only
  rw [r4]
  simp only
  rw [r5]
  simp only
  rw [r6]
  simp only
  rw [r7]
  simp only [List.length_append]
  rw [or4 _ _ _ _ (byteOf_lt _) (byteOf_lt _) (byteOf_lt _), or3 _ _ _ (byteOf_lt _) (byteOf_lt _)]
  simp only [Except.ok.injEq, Prod.mk.injEq, true_and]
  omega

theorem deltaInstruction_add (data : Bytes) (s : InputStream) (hs : stringInputStream data = .ok s)
    (k : Nat) (d : Bytes) (h0 : 0 < d.length) (h1 : d.length < 128)
    (hp : (UInt8.ofNat d.length :: d) <+: data.drop k) :
    deltaInstruction s (8 * k : Nat) = .ok (.add d, 8 * (1 + d.length)) := by
  obtain ⟨t, ht⟩ := hp
  rw [List.cons_append] at ht
  have hb : (UInt8.ofNat d.length).toNat = d.length := by rw [UInt8.toNat_ofNat']; exact Nat.mod_eq_of_lt (by omega)
  have hdrop := drop_succ_of_cons data k _ _ ht.symm
  have hl : d.length + t.length = data.length - (k + 1) := by
    rw [← List.length_drop, hdrop, List.length_append]
  unfold deltaInstruction
  rw [readBits_high data s hs k 0 1 (by omega) (by omega) _ (by omega), ← ht]
  simp only [bind, Except.bind, hb]
  rw [if_neg (by norm_num; omega), readBits_high data s hs k 1 7 (by omega) (by omega) _ (by omega), ← ht]
  simp only [hb, addr_succ]
  rw [show d.length / 2 ^ (8 - 1 - 7) % 2 ^ 7 = d.length by norm_num; omega, if_neg (by omega),
    _root_.Props.C04_readBytes data s hs (k + 1) d.length, if_pos (by omega), hdrop, List.take_left]
  simp only [Except.ok.injEq, Prod.mk.injEq, true_and]
  omega

/-- The same bytes with the operands named in the order of the parser. -/
theorem mirror (c : GitCopy) : ∃ o1 o2 o3 o4 s1 s2 s3 : Option UInt8,
    o1.isSome = c.o3.isSome ∧ o2.isSome = c.o2.isSome ∧ o3.isSome = c.o1.isSome ∧ o4.isSome = c.o0.isSome ∧
    s1.isSome = c.s2.isSome ∧ s2.isSome = c.s1.isSome ∧ s3.isSome = c.s0.isSome ∧
    o1.toList ++ o2.toList ++ o3.toList ++ o4.toList = c.o0.toList ++ c.o1.toList ++ c.o2.toList ++ c.o3.toList ∧
    s1.toList ++ s2.toList ++ s3.toList = c.s0.toList ++ c.s1.toList ++ c.s2.toList := by
  have h4 : ∀ a b c d : Option UInt8, ∃ o1 o2 o3 o4 : Option UInt8, o1.isSome = d.isSome ∧ o2.isSome = c.isSome ∧
      o3.isSome = b.isSome ∧ o4.isSome = a.isSome ∧
      o1.toList ++ o2.toList ++ o3.toList ++ o4.toList = a.toList ++ b.toList ++ c.toList ++ d.toList := by
    intro a b c d
    have key : ∀ (w x y z : Bool) (l : Bytes), l.length = w.toNat + x.toNat + y.toNat + z.toNat →
        ∃ o1 o2 o3 o4 : Option UInt8, o1.isSome = w ∧ o2.isSome = x ∧ o3.isSome = y ∧ o4.isSome = z ∧
        o1.toList ++ o2.toList ++ o3.toList ++ o4.toList = l := by
      have one : ∀ (w : Bool) (m : Nat) (l : Bytes), l.length = w.toNat + m →
          ∃ o : Option UInt8, ∃ r, o.isSome = w ∧ r.length = m ∧ o.toList ++ r = l := by
        intro w m l hl
        cases w with
        | false => exact ⟨none, l, rfl, by simpa using hl, rfl⟩
        | true =>
          cases l with
          | nil => simp at hl; omega
          | cons b l => exact ⟨some b, l, rfl, by simp at hl; omega, rfl⟩
      intro w x y z l hl
      obtain ⟨o1, r1, a1, b1, c1⟩ := one w (x.toNat + y.toNat + z.toNat) l (by omega)
      obtain ⟨o2, r2, a2, b2, c2⟩ := one x (y.toNat + z.toNat) r1 (by omega)
      obtain ⟨o3, r3, a3, b3, c3⟩ := one y z.toNat r2 (by omega)
      obtain ⟨o4, r4, a4, b4, c4⟩ := one z 0 r3 (by omega)
      have hr4 : r4 = [] := List.eq_nil_of_length_eq_zero b4
      refine ⟨o1, o2, o3, o4, a1, a2, a3, a4, ?_⟩
      rw [← c1, ← c2, ← c3, ← c4, hr4]
      simp
    apply key
    cases a <;> cases b <;> cases c <;> cases d <;> rfl
  obtain ⟨o1, o2, o3, o4, a1, a2, a3, a4, a5⟩ := h4 c.o0 c.o1 c.o2 c.o3
  obtain ⟨s0, s1, s2, s3, b1, b2, b3, b4, b5⟩ := h4 c.s0 c.s1 c.s2 none
  have hs0 : s0 = none := by simpa using b1
  subst hs0
  refine ⟨o1, o2, o3, o4, s1, s2, s3, a1, a2, a3, a4, b2, b3, b4, a5, ?_⟩
  simpa using b5

/-- At most one byte of the offset and at most one byte of the size is stored. -/
def OneByte (c : GitCopy) : Prop :=
  (c.o0.toList ++ c.o1.toList ++ c.o2.toList ++ c.o3.toList).length ≤ 1 ∧
  (c.s0.toList ++ c.s1.toList ++ c.s2.toList).length ≤ 1

theorem flag_eq (a b : Option UInt8) (n : Nat) (h : a.isSome = b.isSome) : flag a n = flag b n := by
  unfold flag; rw [h]

/-- The instruction as the parser shows it: the right kind always, the inserted bytes always,
offset and size of a copy when at most one byte of each is stored. -/
def Shows : GitInstr → Delta → Prop
  | .add d, .add e => d = e
  | .copy c, .copy size offset => OneByte c → size = c.rawSize ∧ offset = c.offset
  | _, _ => False

theorem deltaInstruction_shows (data : Bytes) (s : InputStream) (hs : stringInputStream data = .ok s)
    (k : Nat) (g : GitInstr) (hg : g.Valid) (hp : g.bytes <+: data.drop k) :
    ∃ d, deltaInstruction s (8 * k : Nat) = .ok (d, 8 * g.bytes.length) ∧ Shows g d := by
  cases g with
  | add d =>
    refine ⟨.add d, ?_, rfl⟩
    rw [deltaInstruction_add data s hs k d hg.1 hg.2 hp]
    simp only [GitInstr.bytes, List.length_cons, Except.ok.injEq, Prod.mk.injEq, true_and]
    omega
  | copy c =>
    have hval : ∀ o1 o2 o3 o4 s1 s2 s3 : Option UInt8,
        o1.isSome = c.o3.isSome → o2.isSome = c.o2.isSome → o3.isSome = c.o1.isSome → o4.isSome = c.o0.isSome →
        s1.isSome = c.s2.isSome → s2.isSome = c.s1.isSome → s3.isSome = c.s0.isSome →
        o1.toList ++ o2.toList ++ o3.toList ++ o4.toList = c.o0.toList ++ c.o1.toList ++ c.o2.toList ++ c.o3.toList →
        s1.toList ++ s2.toList ++ s3.toList = c.s0.toList ++ c.s1.toList ++ c.s2.toList →
        deltaInstruction s (8 * k : Nat) =
          .ok (.copy (byteOf s3 + 256 * byteOf s2 + 65536 * byteOf s1)
            (byteOf o4 + 256 * byteOf o3 + 65536 * byteOf o2 + 16777216 * byteOf o1), 8 * c.bytes.length) := by
      intro o1 o2 o3 o4 s1 s2 s3 h1 h2 h3 h4 h5 h6 h7 h8 h9
      have heq : UInt8.ofNat (128 + flag s1 64 + flag s2 32 + flag s3 16 + flag o1 8 + flag o2 4 + flag o3 2 + flag o4 1) ::
          (o1.toList ++ o2.toList ++ o3.toList ++ o4.toList ++ s1.toList ++ s2.toList ++ s3.toList) = c.bytes := by
        unfold GitCopy.bytes
        rw [flag_eq _ _ _ h1, flag_eq _ _ _ h2, flag_eq _ _ _ h3, flag_eq _ _ _ h4, flag_eq _ _ _ h5, flag_eq _ _ _ h6,
          flag_eq _ _ _ h7]
        congr 1
        rw [h8]
        simp only [List.append_assoc] at h9 ⊢
        rw [h9]
      have := deltaInstruction_copy data s hs k o1 o2 o3 o4 s1 s2 s3 (by rw [heq]; exact hp)
      rw [this, ← heq, List.length_cons]
      simp only [Except.ok.injEq, Prod.mk.injEq, true_and]
      omega
    obtain ⟨o1, o2, o3, o4, s1, s2, s3, h1, h2, h3, h4, h5, h6, h7, h8, h9⟩ := mirror c
    by_cases hone : OneByte c
    · refine ⟨_, hval c.o3 c.o2 c.o1 c.o0 c.s2 c.s1 c.s0 rfl rfl rfl rfl rfl rfl rfl ?_ ?_, fun _ => ⟨rfl, rfl⟩⟩
      · have := hone.1
        revert this
        cases c.o0 <;> cases c.o1 <;> cases c.o2 <;> cases c.o3 <;> simp
      · have := hone.2
        revert this
        cases c.s0 <;> cases c.s1 <;> cases c.s2 <;> simp
    · exact ⟨_, hval o1 o2 o3 o4 s1 s2 s3 h1 h2 h3 h4 h5 h6 h7 h8 h9, fun h => absurd h hone⟩

theorem bytes_pos (g : GitInstr) : 0 < g.bytes.length := by
  cases g <;> simp [GitInstr.bytes, GitCopy.bytes]

/-- C56 (partial): a delta is divided into exactly git's instructions, each covering exactly
its bytes, with the right kind and the right inserted bytes; the numbers of a copy are right
when at most one byte of the offset and one of the size is stored.  Missing for the full
claim: copies with more bytes (`C56_copy_wrong`) and the size 0 (`C56_size_zero_wrong`), where
the code disagrees with git. -/
theorem C56_instructions_partial (data : Bytes) (s : InputStream) (hs : stringInputStream data = .ok s)
    (gs : List GitInstr) (hgs : ∀ g ∈ gs, g.Valid) (k n : Nat) (hn : gs.length < n)
    (hp : gs.flatMap GitInstr.bytes <+: data.drop k) :
    ∃ ds, deltaInstructions s n (8 * k : Nat) (8 * (gs.flatMap GitInstr.bytes).length) = .ok ds ∧
      List.Forall₂ Shows gs ds := by
  induction gs generalizing k n with
  | nil =>
    cases n with
    | zero => simp at hn
    | succ n => exact ⟨[], by rw [deltaInstructions, if_neg (by simp)], .nil⟩
  | cons g gs ih =>
    cases n with
    | zero => simp at hn
    | succ n =>
      rw [List.flatMap_cons] at hp
      simp only [List.flatMap_cons, List.length_append, List.length_cons] at hn ⊢
      obtain ⟨d, hd, hsh⟩ := deltaInstruction_shows data s hs k g (hgs g (by simp))
        ((List.prefix_append _ _).trans hp)
      obtain ⟨ds, hds, hf⟩ := ih (fun g hg => hgs g (by simp [hg])) (k + g.bytes.length) n (by omega)
        (prefix_drop_append hp)
      have := bytes_pos g
      refine ⟨d :: ds, ?_, .cons hsh hf⟩
      rw [deltaInstructions, if_pos (by omega), hd]
      simp only
      rw [show ((8 * k : Nat) : Int) + ((8 * g.bytes.length : Nat) : Int) = ((8 * (k + g.bytes.length) : Nat) : Int) by
          push_cast; ring,
        show 8 * (g.bytes.length + (gs.flatMap GitInstr.bytes).length) - 8 * g.bytes.length =
          8 * (gs.flatMap GitInstr.bytes).length by omega, hds]

/-- C56 (disagreement): two stored bytes are swapped, whatever they are: git's offset
`a + 256 b` is shown as `b + 256 a`, so every copy with two different offset bytes is wrong. -/
theorem C56_copy_wrong (data : Bytes) (s : InputStream) (hs : stringInputStream data = .ok s)
    (k : Nat) (a b z : UInt8)
    (hp : (GitCopy.mk (some a) (some b) none none (some z) none none).bytes <+: data.drop k) :
    deltaInstruction s (8 * k : Nat) = .ok (.copy z.toNat (b.toNat + 256 * a.toNat), 32) ∧
    (a ≠ b → b.toNat + 256 * a.toNat ≠ (GitCopy.mk (some a) (some b) none none (some z) none none).offset) := by
  constructor
  · have := deltaInstruction_copy data s hs k none none (some a) (some b) none none (some z) hp
    rw [this]
    simp [byteOf]
  · intro hab h
    simp only [GitCopy.offset, byteOf, Option.map_some, Option.getD_some, Option.map_none, Option.getD_none] at h
    have h1 := a.toNat_lt
    have h2 := b.toNat_lt
    exact hab (UInt8.toNat_inj.1 (by omega))

/-- C56 (disagreement): a copy without size bytes is shown as a copy of 0 bytes; git copies
0x10000. -/
theorem C56_size_zero_wrong (data : Bytes) (s : InputStream) (hs : stringInputStream data = .ok s)
    (k : Nat) (a : UInt8)
    (hp : (GitCopy.mk (some a) none none none none none none).bytes <+: data.drop k) :
    deltaInstruction s (8 * k : Nat) = .ok (.copy 0 a.toNat, 16) ∧
    (GitCopy.mk (some a) none none none none none none).size = 0x10000 := by
  constructor
  · have := deltaInstruction_copy data s hs k none none none (some a) none none none hp
    rw [this]
    simp [byteOf]
  · simp [GitCopy.size, GitCopy.rawSize, byteOf]

/-- A delta with an insertion of two bytes and a copy of 0x50 bytes from offset 0x200. -/
example : ([GitInstr.add [104, 105], .copy (GitCopy.mk none (some 2) none none (some 0x50) none none)].flatMap
      GitInstr.bytes = [2, 104, 105, 0x92, 2, 0x50]) ∧
    (GitCopy.mk none (some 2) none none (some 0x50) none none).offset = 0x200 ∧
    ∃ s, stringInputStream [2, 104, 105, 0x92, 2, 0x50] = .ok s ∧
    deltaInstructions s 3 ((8 * 0 : Nat) : Int) 48 = .ok [.add [104, 105], .copy 0x50 0x200] := by
  refine ⟨by decide +kernel, by decide +kernel, _, rfl, by decide +kernel⟩

end Hachoir.Props
