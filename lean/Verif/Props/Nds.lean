import Verif.Formats.Nds
import Verif.Props.Asf
import Verif.Props.Keyring
import Verif.Props.Archives
import Verif.Props.Bplist

/-!
# C191: games of the Nintendo DS
-/

namespace Hachoir.Props
open Spec Hachoir Hachoir.Stream Hachoir.Field Hachoir.Formats Hachoir.Formats.Nds

/-! ## The sum over bits -/

/-- The register of the reflected CRC-16: a bit comes in, and the polynomial is taken out when the bits at the end differ. -/
def shiftIn (register : Nat) (bit : Nat) : Nat :=
  if (register + bit) % 2 = 1 then (register / 2) ^^^ 0xa001 else register / 2

/-- The bits of a byte, lowest first. -/
def bitsUp (n v : Nat) : List Nat := (List.range n).map fun i => v / 2 ^ i % 2

/-- CRC-16 of a message, bit by bit. -/
def crcBits (codes : List Nat) (register : Nat) : Nat := (codes.flatMap (bitsUp 8)).foldl shiftIn register

def crcStep (c : Nat) : Nat := if c % 2 = 1 then (c / 2) ^^^ 0xa001 else c / 2

theorem xor_mod_two (a b : Nat) : (a ^^^ b) % 2 = (a + b) % 2 := by
  rw [show (2 : Nat) = 2 ^ 1 from rfl, Nat.xor_mod_two_pow]
  rcases Nat.mod_two_eq_zero_or_one a with ha | ha <;> rcases Nat.mod_two_eq_zero_or_one b with hb | hb <;>
    simp [ha, hb, Nat.add_mod]

theorem xor_half (a b : Nat) : (a ^^^ b) / 2 = a / 2 ^^^ b / 2 := by
  have := Nat.shiftRight_xor_distrib (a := a) (b := b) (i := 1)
  simpa [Nat.shiftRight_eq_div_pow] using this

theorem crc_step_xor (a b : Nat) : crcStep (a ^^^ b) = crcStep a ^^^ crcStep b := by
  rw [crcStep, crcStep, crcStep, xor_mod_two, xor_half]
  rcases Nat.mod_two_eq_zero_or_one a with ha | ha <;> rcases Nat.mod_two_eq_zero_or_one b with hb | hb
  · rw [if_neg (by omega), if_neg (by omega), if_neg (by omega)]
  · rw [if_pos (by omega), if_neg (by omega), if_pos (by omega), Nat.xor_assoc]
  · rw [if_pos (by omega), if_pos (by omega), if_neg (by omega), Nat.xor_assoc, Nat.xor_assoc, Nat.xor_comm (b / 2)]
  · rw [if_neg (by omega), if_pos (by omega), if_pos (by omega), Nat.xor_assoc, Nat.xor_comm 0xa001, Nat.xor_assoc, Nat.xor_self, Nat.xor_zero]

def crcSteps : Nat → Nat → Nat
  | 0, c => c
  | n + 1, c => crcSteps n (crcStep c)

theorem crc_steps_xor : ∀ (n a b : Nat), crcSteps n (a ^^^ b) = crcSteps n a ^^^ crcSteps n b
  | 0, _, _ => rfl
  | n + 1, a, b => by rw [crcSteps, crc_step_xor, crc_steps_xor n]; rfl

theorem crc_steps_up : ∀ (n h : Nat), crcSteps n (2 ^ n * h) = h
  | 0, h => by rw [crcSteps]; omega
  | n + 1, h => by
    have e : 2 ^ (n + 1) * h = 2 * (2 ^ n * h) := by rw [Nat.pow_succ, Nat.mul_comm (2 ^ n) 2, Nat.mul_assoc]
    rw [crcSteps, e, crcStep, if_neg (by omega), show 2 * (2 ^ n * h) / 2 = 2 ^ n * h by omega, crc_steps_up n]

theorem bits_up_succ (n v : Nat) : bitsUp (n + 1) v = v % 2 :: bitsUp n (v / 2) := by
  rw [bitsUp, List.range_succ_eq_map, List.map_cons, List.map_map, bitsUp]
  congr 1
  · rw [Nat.pow_zero, Nat.div_one]
  · refine List.map_congr_left fun i _ => ?_
    show v / 2 ^ (i + 1) % 2 = _
    rw [Nat.pow_succ, Nat.mul_comm, ← Nat.div_div_eq_div_mul]

theorem shift_in_bits : ∀ (n b c : Nat), b < 2 ^ n → (bitsUp n b).foldl shiftIn c = crcSteps n (c ^^^ b)
  | 0, b, c, h => by
    have : b = 0 := by omega
    subst this
    rw [Nat.xor_zero]; rfl
  | n + 1, b, c, h => by
    rw [Nat.pow_succ] at h
    rw [bits_up_succ, List.foldl_cons, shift_in_bits n (b / 2) _ (by omega), crcSteps]
    congr 1
    rw [shiftIn, crcStep, xor_mod_two, xor_half]
    by_cases hp : (c + b) % 2 = 1
    · rw [if_pos hp, if_pos (by omega), Nat.xor_assoc, Nat.xor_assoc, Nat.xor_comm 0xa001]
    · rw [if_neg hp, if_neg (by omega)]

theorem table_get (i : Nat) (h : i < 256) : Nds.table[i]? = some (crcSteps 8 i) := by
  have : ∀ i : Fin 256, Nds.table[i.val]? = some (crcSteps 8 i.val) := by decide +kernel
  exact this ⟨i, h⟩

theorem xor_lt_256 (a b : Nat) (ha : a < 256) (hb : b < 256) : a ^^^ b < 256 := Nat.xor_lt_two_pow (n := 8) ha hb

theorem split_xor (v : Nat) : v = v % 256 ^^^ 2 ^ 8 * (v / 256) := by
  rw [Nat.xor_comm]
  have h := Nat.two_pow_add_eq_or_of_lt (i := 8) (b := v % 256) (Nat.mod_lt _ (by norm_num)) (v / 256)
  have : 2 ^ 8 * (v / 256) ^^^ v % 256 = 2 ^ 8 * (v / 256) ||| v % 256 := by
    apply Nat.eq_of_testBit_eq
    intro i
    rw [Nat.testBit_xor, Nat.testBit_or, Nat.testBit_two_pow_mul]
    by_cases hi : 8 ≤ i
    · have : (v % 256).testBit i = false := Nat.testBit_lt_two_pow (lt_of_lt_of_le (Nat.mod_lt _ (by norm_num)) (show 256 ≤ 2 ^ i from Nat.pow_le_pow_right (n := 2) (by norm_num) hi))
      rw [this]; simp
    · simp [hi]
  rw [this, ← h]; omega

theorem update_eq (v c : Nat) (hc : c < 256) : update v c = .ok ((bitsUp 8 c).foldl shiftIn v) := by
  rw [update, table_get _ (xor_lt_256 _ _ hc (Nat.mod_lt _ (by norm_num))), shift_in_bits 8 c v hc]
  show Except.ok (crcSteps 8 (c ^^^ v % 256) ^^^ v / 256) = _
  congr 1
  conv_rhs => rw [split_xor v, Nat.xor_assoc, Nat.xor_comm (2 ^ 8 * (v / 256)), ← Nat.xor_assoc, Nat.xor_comm (v % 256), crc_steps_xor, crc_steps_up]

/-- **C191** The sum made with the table is the CRC-16 of the message, bit by bit, for every text of characters below 256 and every value to begin with. -/
theorem C191_crc : ∀ (codes : List Nat) (value : Nat), (∀ c ∈ codes, c < 256) → checksum (.text codes) value = .ok (crcBits codes value)
  | [], _, _ => rfl
  | c :: cs, v, h => by
    show overText (c :: cs) v = _
    rw [overText, update_eq v c (h c (by simp))]
    have := C191_crc cs ((bitsUp 8 c).foldl shiftIn v) fun x hx => h x (by simp [hx])
    rw [crcBits, List.flatMap_cons, List.foldl_append]
    exact this

/-- 123456789 has the sum 0x4b37 of CRC-16 beginning with 0xffff. -/
example : crcBits [49, 50, 51, 52, 53, 54, 55, 56, 57] 0xffff = 0x4b37 := by decide +kernel

theorem crc_high : ∀ i j : Nat, i < 256 → j < 256 → crcSteps 8 i / 256 = crcSteps 8 j / 256 → i = j := by
  have : ∀ i j : Fin 256, crcSteps 8 i.val / 256 = crcSteps 8 j.val / 256 → i = j := by decide +kernel
  intro i j hi hj h
  exact congrArg Fin.val (this ⟨i, hi⟩ ⟨j, hj⟩ h)

theorem nds_xor_cancel {a b c : Nat} (h : a ^^^ b = a ^^^ c) : b = c := by
  have := congrArg (a ^^^ ·) h
  simpa only [← Nat.xor_assoc, Nat.xor_self, Nat.zero_xor] using this

theorem crc_small : ∀ i : Nat, i < 256 → crcSteps 8 i < 65536 := by
  have : ∀ i : Fin 256, crcSteps 8 i.val < 65536 := by decide +kernel
  intro i hi
  exact this ⟨i, hi⟩

theorem xor_256 (a b : Nat) : (a ^^^ b) / 256 = a / 256 ^^^ b / 256 := by
  have := Nat.shiftRight_xor_distrib (a := a) (b := b) (i := 8)
  simpa [Nat.shiftRight_eq_div_pow] using this

def crcByte (v c : Nat) : Nat := crcSteps 8 (c ^^^ v % 256) ^^^ v / 256

theorem crc_byte_eq (v c : Nat) (hc : c < 256) : (bitsUp 8 c).foldl shiftIn v = crcByte v c := by
  have h := update_eq v c hc
  rw [update, table_get _ (xor_lt_256 _ _ hc (Nat.mod_lt _ (by norm_num)))] at h
  exact (Except.ok.inj h).symm

theorem crc_byte_small (v c : Nat) (hv : v < 65536) (hc : c < 256) : crcByte v c < 65536 :=
  Nat.xor_lt_two_pow (n := 16) (crc_small _ (xor_lt_256 _ _ hc (Nat.mod_lt _ (by norm_num)))) (show v / 256 < 65536 by omega)

theorem crc_byte_inj (v w c d : Nat) (hv : v < 65536) (hw : w < 65536) (hc : c < 256) (hd : d < 256) (h : crcByte v c = crcByte w d) :
    c ^^^ v % 256 = d ^^^ w % 256 ∧ v / 256 = w / 256 := by
  have h2 := congrArg (· / 256) h
  simp only [crcByte, xor_256] at h2
  rw [show v / 256 / 256 = 0 by omega, show w / 256 / 256 = 0 by omega, Nat.xor_zero, Nat.xor_zero] at h2
  have e := crc_high _ _ (xor_lt_256 _ _ hc (Nat.mod_lt _ (by norm_num))) (xor_lt_256 _ _ hd (Nat.mod_lt _ (by norm_num))) h2
  refine ⟨e, ?_⟩
  rw [crcByte, crcByte, e] at h
  exact nds_xor_cancel h

theorem crc_bits_cons (c : Nat) (cs : List Nat) (v : Nat) (hc : c < 256) : crcBits (c :: cs) v = crcBits cs (crcByte v c) := by
  rw [crcBits, List.flatMap_cons, List.foldl_append, crc_byte_eq v c hc]; rfl

theorem crc_keeps_apart : ∀ (cs : List Nat) (v w : Nat), (∀ c ∈ cs, c < 256) → v < 65536 → w < 65536 → crcBits cs v = crcBits cs w → v = w
  | [], _, _, _, _, _, h => h
  | c :: cs, v, w, hc, hv, hw, h => by
    have c1 := hc c (by simp)
    rw [crc_bits_cons c cs v c1, crc_bits_cons c cs w c1] at h
    have e := crc_keeps_apart cs _ _ (fun x hx => hc x (by simp [hx])) (crc_byte_small v c hv c1) (crc_byte_small w c hw c1) h
    obtain ⟨e1, e2⟩ := crc_byte_inj v w c c hv hw c1 c1 e
    have e3 : v % 256 = w % 256 := nds_xor_cancel e1
    omega

theorem crc_bits_small : ∀ (cs : List Nat) (v : Nat), (∀ c ∈ cs, c < 256) → v < 65536 → crcBits cs v < 65536
  | [], _, _, hv => hv
  | c :: cs, v, hc, hv => by
    have c1 := hc c (by simp)
    rw [crc_bits_cons c cs v c1]
    exact crc_bits_small cs _ (fun x hx => hc x (by simp [hx])) (crc_byte_small v c hv c1)

/-- **C191** A change of one character anywhere in a text changes the sum. -/
theorem C191_change (before behind : List Nat) (c d value : Nat) (hb : ∀ x ∈ before, x < 256) (ha : ∀ x ∈ behind, x < 256) (hc : c < 256) (hd : d < 256)
    (hv : value < 65536) (hne : c ≠ d) : checksum (.text (before ++ c :: behind)) value ≠ checksum (.text (before ++ d :: behind)) value := by
  rw [C191_crc _ _ (by simpa using fun x hx => hx.elim (hb x) fun h => h.elim (fun e => e ▸ hc) (ha x)),
    C191_crc _ _ (by simpa using fun x hx => hx.elim (hb x) fun h => h.elim (fun e => e ▸ hd) (ha x))]
  intro h
  have h := Except.ok.inj h
  have app : ∀ x, crcBits (before ++ x :: behind) value = crcBits (x :: behind) (crcBits before value) := by
    intro x; rw [crcBits, List.flatMap_append, List.foldl_append]; rfl
  have hs := crc_bits_small before value hb hv
  rw [app, app, crc_bits_cons c _ _ hc, crc_bits_cons d _ _ hd] at h
  have e := crc_keeps_apart behind _ _ ha (crc_byte_small _ c hs hc) (crc_byte_small _ d hs hd) h
  obtain ⟨e1, -⟩ := crc_byte_inj _ _ c d hs hs hc hd e
  rw [Nat.xor_comm c, Nat.xor_comm d] at e1
  exact hne (nds_xor_cancel e1)

example : checksum (.text [1, 2, 3]) 0xffff ≠ checksum (.text [1, 7, 3]) 0xffff :=
  C191_change [1] [3] 2 7 0xffff (by simp) (by simp) (by omega) (by omega) (by omega) (by omega)

/-- **C191** The sum of bytes is never made: the description of a field with a sum is empty, whether the sum is right or not. -/
theorem C191_no_description (target : Bytes) (value : Nat) (h : target ≠ []) :
    checksum (.bytes target) 0xffff = .error .type ∧ crcDescription target value = .empty := by
  cases target with
  | nil => exact absurd rfl h
  | cons b bs => exact ⟨rfl, rfl⟩

example : crcDescription [1, 2] 17 = .empty := (C191_no_description [1, 2] 17 (by simp)).2

/-! ## Names of files -/

def NdsEntryFits (e : Entry) : Prop := 1 ≤ e.name.length ∧ e.name.length ≤ 127 ∧ ∀ d, e.dir = some d → d < 65536

/-- The name behind its length, with the highest bit and a number for a directory. -/
def ndsEntryBytes (e : Entry) : Bytes :=
  match e.dir with
  | none => UInt8.ofNat e.name.length :: e.name
  | some d => UInt8.ofNat (128 + e.name.length) :: (e.name ++ leBytes 2 d)

theorem reads_len_bits (n : Nat) (d : Nat) (hn : n < 128) (hd : d < 2) : Reads (Rd.bits .little [7, 1]) [n, d] [UInt8.ofNat (128 * d + n)] := by
  have h := reads_bits_le [7, 1] [UInt8.ofNat (128 * d + n)] (by simp) (by simp)
  have e : ofBytesLE [UInt8.ofNat (128 * d + n)] = 128 * d + n := by
    simp [ofBytesLE]; omega
  rw [e] at h
  refine h.of_eq ?_ rfl
  simp only [splitLE, List.cons.injEq, and_true]
  omega

theorem reads_nds_entry (e : Entry) (h : NdsEntryFits e) : Reads Nds.entry e (ndsEntryBytes e) := by
  obtain ⟨name, dir⟩ := e
  obtain ⟨h1, h2, h3⟩ := h
  have ht := reads_fixed .little .eightBit (by simp) name.length name rfl ⟨h1, by simp only at h2; omega⟩
  cases dir with
  | none =>
    have l := reads_len_bits name.length 0 (by simp only at h2; omega) (by omega)
    rw [Nat.mul_zero, Nat.zero_add] at l
    exact Reads.rbind (xs := [UInt8.ofNat name.length]) (ys := name) l (Reads.rmap (f := fun t => (⟨t, none⟩ : Entry)) ht)
  | some d =>
    have l := reads_len_bits name.length 1 (by simp only at h2; omega) (by omega)
    rw [Nat.mul_one] at l
    exact Reads.rbind (xs := [UInt8.ofNat (128 + name.length)]) (ys := name ++ leBytes 2 d) l
      (Reads.rbind ht (Reads.rmap (f := fun d => (⟨name, some d⟩ : Entry)) (reads_int_le 2 d (by omega) (by have := h3 d rfl; norm_num; omega))))

theorem nds_entry_head (e : Entry) (h : NdsEntryFits e) : ∃ b bs, ndsEntryBytes e = b :: bs ∧ b.toNat % 128 ≠ 0 := by
  obtain ⟨name, dir⟩ := e
  obtain ⟨h1, h2, -⟩ := h
  simp only at h1 h2
  cases dir with
  | none => exact ⟨_, _, rfl, by rw [UInt8.toNat_ofNat']; dsimp only; omega⟩
  | some d => exact ⟨_, _, rfl, by rw [UInt8.toNat_ofNat']; dsimp only; omega⟩

/-- **C191** A directory is read as written: its files and directories in order, up to the byte without a length. -/
theorem C191_directory (marker : UInt8) (hm : marker.toNat % 128 = 0) : ∀ (es : List Entry) (fuel : Nat), es.length < fuel → (∀ e ∈ es, NdsEntryFits e) →
    Reads (directory fuel) (es, marker.toNat) (es.flatMap ndsEntryBytes ++ [marker])
  | [], fuel + 1, _, _ => by
    refine Reads.peek .little (by simp) marker ?_
    rw [if_pos hm]
    refine Reads.rmap (f := fun m => (([] : List Entry), m)) ?_
    have := reads_int_le 1 marker.toNat (by omega) (by have := marker.toNat_lt; omega)
    refine this.of_eq rfl ?_
    simp [leBytes]
  | e :: es, fuel + 1, hf, h => by
    have he := h e (by simp)
    obtain ⟨b, bs, hb, hne⟩ := nds_entry_head e he
    have r := reads_nds_entry e he
    rw [List.flatMap_cons, List.append_assoc]
    have ih := C191_directory marker hm es fuel (by simpa using hf) fun x hx => h x (by simp [hx])
    have all := Reads.rbind (f := fun e => Rd.bind (directory fuel) fun r => Rd.pure (e :: r.1, r.2)) r (Reads.rmap (f := fun r : List Entry × Nat => (e :: r.1, r.2)) ih)
    rw [hb, List.cons_append] at all ⊢
    refine Reads.peek .little (by simp) b ?_
    rw [if_neg hne]
    exact all

example : Reads (directory 3) ([⟨[97], none⟩, ⟨[98, 99], some 0xf001⟩], 0) ([⟨[97], none⟩, ⟨[98, 99], some 0xf001⟩].flatMap ndsEntryBytes ++ [0]) :=
  C191_directory 0 (by decide) [⟨[97], none⟩, ⟨[98, 99], some 0xf001⟩] 3 (by simp) (by simp [NdsEntryFits])

/-- A directory as told: its numbers (start, first file, parent), entries and the byte at the end. -/
structure DirTold where
  numbers : List Nat
  entries : List Entry
  marker : UInt8

def DirHolds (data : Bytes) (start : Nat) (d : DirTold) : Prop :=
  NumsFit [4, 2, 2] d.numbers ∧ (∀ e ∈ d.entries, NdsEntryFits e) ∧ d.marker.toNat % 128 = 0 ∧
    d.entries.flatMap ndsEntryBytes ++ [d.marker] <+: data.drop (start + d.numbers.getD 0 0)

/-- **C191** The table of names is read as written, wherever its directories are: the number of directories is told by the first of them. -/
theorem C191_names (data : Bytes) (start fuel : Nat) (first : DirTold) (others : List DirTold) (hs : start ≤ data.length)
    (hn : first.numbers.getD 2 0 = others.length + 1) (hd : ∀ d ∈ first :: others, DirHolds data start d ∧ d.entries.length < fuel)
    (hp : (first :: others).flatMap (fun d => numsBytes [4, 2, 2] d.numbers) <+: data.drop start) :
    ∃ b, AtPlace data (nameTable fuel) ((first :: others).map (·.numbers), (first :: others).map fun d => (d.entries, d.marker.toNat)) start b := by
  have rh := reads_numbers [4, 2, 2] first.numbers (hd first (by simp)).1.1
  have ro := reads_times_map dirTable DirTold.numbers (fun d => numsBytes [4, 2, 2] d.numbers) others
    fun d h => reads_numbers [4, 2, 2] d.numbers (hd d (by simp [h])).1.1
  rw [List.flatMap_cons] at hp
  have hl := hp.length_le
  rw [List.length_append, List.length_drop] at hl
  have a1 := rh.at (prefix_left hp) hs
  have a2 := ro.at (drop_prefix hp) (by omega)
  have ed : ∀ d ∈ first :: others, ∀ a, ∃ b, AtPlace data (dirAt fuel start d.numbers) (d.entries, d.marker.toNat) a b := by
    intro d h a
    obtain ⟨⟨-, h2, h3, h4⟩, h5⟩ := hd d h
    have hle : start + d.numbers.getD 0 0 ≤ data.length := by
      have := h4.length_le
      rw [List.length_drop, List.length_append] at this
      simp only [List.length_cons, List.length_nil] at this
      omega
    exact ⟨_, AtPlace.bind (at_jump data a _) ((C191_directory d.marker h3 d.entries fuel h5 h2).at h4 hle)⟩
  have hm : ∀ (l : List DirTold) (a : Nat), (∀ d ∈ l, ∀ a, ∃ b, AtPlace data (dirAt fuel start d.numbers) (d.entries, d.marker.toNat) a b) →
      ∃ b, AtPlace data (Rd.each (dirAt fuel start) (l.map (·.numbers))) (l.map fun d => (d.entries, d.marker.toNat)) a b := by
    intro l
    induction l with
    | nil => exact fun a _ => ⟨a, at_pure data _ a⟩
    | cons d l ih =>
      intro a h
      obtain ⟨b, hb⟩ := h d (by simp) a
      obtain ⟨c, hc⟩ := ih b fun y hy => h y (by simp [hy])
      exact ⟨c, AtPlace.bind hb (AtPlace.map (f := fun vs => (d.entries, d.marker.toNat) :: vs) hc)⟩
  obtain ⟨b, hb⟩ := hm (first :: others) _ ed
  refine ⟨b, at_place data _ _ _ _ ?_⟩
  rw [show 8 * start / 8 = start by omega]
  refine AtPlace.bind a1 ?_
  rw [hn, Nat.add_sub_cancel]
  refine AtPlace.bind a2 ?_
  rw [List.take_of_length_le (by simp)]
  exact AtPlace.map (f := fun ds => (first.numbers :: others.map (·.numbers), ds)) hb

example : ∃ b, AtPlace [9, 8, 0, 0, 0, 0, 0, 1, 0, 1, 97, 0] (nameTable 2) ([[8, 0, 1]], [([⟨[97], none⟩], 0)]) 1 b :=
  C191_names [9, 8, 0, 0, 0, 0, 0, 1, 0, 1, 97, 0] 1 2 ⟨[8, 0, 1], [⟨[97], none⟩], 0⟩ [] (by decide) rfl
    (by simp [DirHolds, NumsFit, NdsEntryFits, ndsEntryBytes]) (by decide)

/-! ## Files -/

/-- **C191** The table of places is read as written, one pair for eight bytes of its size. -/
theorem C191_fat (entries : List (List Nat)) (h : ∀ e ∈ entries, NumsFit [4, 4] e) :
    Reads (fat (8 * entries.length)) entries (entries.flatMap (numsBytes [4, 4])) := by
  rw [fat, show 8 * entries.length / 8 = entries.length by omega]
  exact reads_list _ _ entries fun e he => reads_numbers _ _ (h e he)

example : Reads (fat 16) [[1, 2], [7, 9]] ([[1, 2], [7, 9]].flatMap (numsBytes [4, 4])) := C191_fat [[1, 2], [7, 9]] (by simp [NumsFit])

/-- **C191** Every file with content has the bytes from its start up to its end; files without content are left out. -/
theorem C191_files (data : Bytes) (entries : List (List Nat)) (a : Nat) (h : ∀ e ∈ entries, e.getD 1 0 ≤ data.length) :
    ∃ b, AtPlace data (files entries) ((entries.filter fun e => decide (e.getD 0 0 < e.getD 1 0)).map
      fun e => (data.take (e.getD 1 0)).drop (e.getD 0 0)) a b := by
  refine at_each data _ _ _ a fun e he a => ?_
  rw [List.mem_filter, decide_eq_true_eq] at he
  obtain ⟨h1, h2⟩ := he
  have h3 := h e h1
  refine ⟨_, AtPlace.bind (at_jump data a _) ((reads_raw_n (e.getD 1 0 - e.getD 0 0) _ ?_ (by omega)).at ?_ (by omega))⟩
  · rw [List.length_drop, List.length_take]; omega
  · rw [List.drop_take]
    exact List.take_prefix _ _

example : ∃ b, AtPlace [1, 2, 3, 4] (files [[1, 3], [2, 2], [0, 1]]) [[2, 3], [1]] 0 b := C191_files [1, 2, 3, 4] [[1, 3], [2, 2], [0, 1]] 0 (by simp)

/-! ## Headers -/

/-- What the numbers of a header that is taken must be. -/
def HeadRight (first : UInt8) (bytes : Nat) (h : Head) : Prop :=
  first ≠ 0 ∧ h.device % 8 = 0 ∧ 352 ≤ h.size ∧ h.card ≤ 14 ∧
    (h.bin9 ∈ Set.Icc 1 0x3bfe00 ∧ h.bin7 ∈ Set.Icc 1 0x3bfe00) ∧
    (h.source9 + h.bin9 < 8 * bytes ∧ h.source7 + h.bin7 < 8 * bytes) ∧
    (h.execute9 ∈ Set.Icc 0x02000000 0x023bfe00 ∧ h.copy9 ∈ Set.Icc 0x02000000 0x023bfe00) ∧
    h.execute7 ∈ Set.Icc 0x02000000 0x03807e00 ∧ h.copy7 ∈ Set.Icc 0x02000000 0x03807e00

/-- **C191** Which headers are taken. The end of the code is compared with eight times the size of the file. -/
theorem C191_valid (first : UInt8) (bytes : Nat) (h : Head) : validate first (8 * bytes) h = true ↔ HeadRight first bytes h := by
  simp only [validate, HeadRight, Bool.and_eq_true, decide_eq_true_eq, bne_iff_ne, beq_iff_eq, Set.mem_Icc, ne_eq]
  constructor
  · rintro ⟨⟨⟨⟨⟨⟨⟨⟨⟨⟨⟨⟨⟨⟨⟨⟨⟨a, b⟩, c⟩, d⟩, e⟩, f⟩, g⟩, i⟩, j⟩, k⟩, l⟩, m⟩, n⟩, o⟩, p⟩, q⟩, r⟩, s⟩
    exact ⟨a, b, c, by omega, ⟨⟨e, f⟩, g, i⟩, ⟨j, k⟩, ⟨⟨l, m⟩, n, o⟩, ⟨p, q⟩, r, s⟩
  · rintro ⟨a, b, c, d, ⟨⟨e, f⟩, g, i⟩, ⟨j, k⟩, ⟨⟨l, m⟩, n, o⟩, ⟨p, q⟩, r, s⟩
    exact ⟨⟨⟨⟨⟨⟨⟨⟨⟨⟨⟨⟨⟨⟨⟨⟨⟨a, b⟩, c⟩, by omega⟩, e⟩, f⟩, g⟩, i⟩, j⟩, k⟩, l⟩, m⟩, n⟩, o⟩, p⟩, q⟩, r⟩, s⟩

/-- **C191** Every header with all of its code inside the file passes the test of the places, but headers with code behind the end of the file pass it too. -/
theorem C191_outside : ∃ (bytes : Nat) (h : Head), validate 65 (8 * bytes) h = true ∧ bytes < h.source9 :=
  ⟨0x8000, ⟨0, 7, 16384, 0x10000, 0x02000000, 0x02000000, 4096, 0x5000, 0x02380000, 0x02380000, 4096⟩, by decide, by decide⟩

/-- **C191** The size of a card in megabits. -/
theorem C191_megabits (v : Nat) : megabits v = 2 ^ v := by
  rw [megabits, Nat.pow_add, show 1024 * 1024 = 2 ^ 20 from rfl, Nat.mul_div_cancel_left _ (by norm_num)]

end Hachoir.Props
