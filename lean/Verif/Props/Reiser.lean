import Verif.Formats.Reiser
import Verif.Props.Asf
import Verif.Props.Packed
import Verif.Props.Xcf

/-!
# C179: ReiserFS file systems
-/

namespace Hachoir.Props
open Hachoir Hachoir.Stream Hachoir.Field Hachoir.Formats Hachoir.Formats.Reiser Spec _root_.Props

/-! ### Specification -/

def reiserSuper (s : Super) : Bytes :=
  numsBytes [4, 4, 4, 4, 4, 4, 4, 4, 4, 4, 4] s.counts ++ (leBytes 2 s.blockSize ++ (numsBytes [2, 2, 2] s.ids ++ (s.magic ++ (numsBytes [2, 4, 2] s.state ++ (leBytes 2 s.maps ++
    (numsBytes [2, 2, 4, 4] s.rest ++ (s.uuid ++ (s.label ++ (s.unused ++ s.filler)))))))))

structure ReiserSuper (s : Super) : Prop where
  counts : NumsFit [4, 4, 4, 4, 4, 4, 4, 4, 4, 4, 4] s.counts
  blockSize : 204 < s.blockSize ∧ s.blockSize < 65536
  ids : NumsFit [2, 2, 2] s.ids
  magic : s.magic.length = 10
  state : NumsFit [2, 4, 2] s.state
  maps : s.maps < 65536
  rest : NumsFit [2, 2, 4, 4] s.rest
  uuid : s.uuid.length = 16
  label : s.label.length = 16
  unused : s.unused.length = 88
  filler : s.filler.length = s.blockSize - 204

/-- Where the bitmap `i` is: the first behind the superblock, the others at the first of the blocks they tell of. -/
def mapAt (bs i : Nat) : Nat := if i = 0 then 65536 + bs else (i * (8 * bs)) * bs

/-- The bits of the bytes, the lowest first. -/
def lowFirst (b : Bytes) : List Nat := b.flatMap fun x => (List.range 8).map fun k => x.toNat / 2 ^ k % 2

/-! ### Proofs -/

theorem split_ones : ∀ b : Bytes, splitLE (List.replicate (8 * b.length) 1) (ofBytesLE b) = lowFirst b
  | [] => rfl
  | x :: b => by
    rw [List.length_cons, show 8 * (b.length + 1) = 8 * b.length + 1 + 1 + 1 + 1 + 1 + 1 + 1 + 1 by omega]
    simp only [List.replicate_succ, splitLE, ofBytesLE, Nat.pow_one, lowFirst, List.flatMap_cons]
    have hx := x.toNat_lt
    have ih := split_ones b
    simp only [Nat.div_div_eq_div_mul]
    rw [show (x.toNat + 256 * ofBytesLE b) / (2 * 2 * 2 * 2 * 2 * 2 * 2 * 2) = ofBytesLE b by omega, ih]
    have e : (List.range 8).map (fun k => x.toNat / 2 ^ k % 2) = [x.toNat % 2, x.toNat / 2 % 2, x.toNat / 4 % 2, x.toNat / 8 % 2, x.toNat / 16 % 2, x.toNat / 32 % 2, x.toNat / 64 % 2, x.toNat / 128 % 2] := by
      simp [List.range_succ]
    rw [e]
    simp only [List.cons_append, List.nil_append, lowFirst, List.cons.injEq, and_true]
    refine ⟨?_, ?_, ?_, ?_, ?_, ?_, ?_, ?_⟩ <;> omega

theorem reads_states (b : Bytes) (h0 : b ≠ []) : Reads (states b.length) (lowFirst b) b := by
  have := reads_bits_le (List.replicate (8 * b.length) 1) b (List.length_pos_of_ne_nil h0) (by simp)
  rwa [split_ones] at this

theorem at_states (data : Bytes) (bs a : Nat) (h0 : 0 < bs) (h : a + bs ≤ data.length) :
    AtPlace data (states bs) (lowFirst ((data.drop a).take bs)) a (a + bs) := by
  have hl : ((data.drop a).take bs).length = bs := by
    rw [List.length_take, List.length_drop]
    omega
  have := (reads_states ((data.drop a).take bs) (by intro e; rw [e] at hl; simp at hl; omega)).at (data := data) (a := a) (List.take_prefix _ _) (by omega)
  rwa [hl] at this

theorem map_far (bs i : Nat) (h : 204 < bs) (hi : 0 < i) : mapAt bs i = bs ^ 2 * 8 * i ∧ 65536 + bs ≤ bs ^ 2 * 8 * i := by
  constructor
  · rw [mapAt, if_neg (by omega)]
    ring
  · have h1 : 205 * bs ≤ bs ^ 2 := by
      rw [pow_two]
      exact Nat.mul_le_mul_right _ h
    have h2 : bs ^ 2 * 8 * 1 ≤ bs ^ 2 * 8 * i := Nat.mul_le_mul_left _ hi
    omega

theorem at_others (data : Bytes) (bs : Nat) (hb : 204 < bs) : ∀ (n i a : Nat), 0 < i → (∀ j, i ≤ j → j < i + n → mapAt bs j + bs ≤ data.length) →
    ∃ b, AtPlace data (Rd.each (other bs) (List.range' i n)) ((List.range' i n).map fun j => lowFirst ((data.drop (mapAt bs j)).take bs)) a b
  | 0, _, a, _, _ => ⟨a, at_pure data _ a⟩
  | n + 1, i, a, hi, h => by
    obtain ⟨e, hf⟩ := map_far bs i hb hi
    obtain ⟨b, ih⟩ := at_others data bs hb n (i + 1) (mapAt bs i + bs) (by omega) fun j h1 h2 => h j (by omega) (by omega)
    refine ⟨b, ?_⟩
    rw [List.range'_succ, List.map_cons]
    have h1 : AtPlace data (other bs i) (lowFirst ((data.drop (mapAt bs i)).take bs)) a (mapAt bs i + bs) := by
      rw [other, if_neg (by omega), ← e]
      exact AtPlace.bind (f := fun _ => states bs) (at_jump data a _) (at_states data bs _ (by omega) (h i (by omega) (by omega)))
    exact AtPlace.bind (f := fun x => Rd.bind (Rd.each (other bs) (List.range' (i + 1) n)) fun as => Rd.pure (x :: as)) h1
      (AtPlace.map (f := fun as => lowFirst ((data.drop (mapAt bs i)).take bs) :: as) ih)

theorem reads_fill (bs : Nat) (b : Bytes) (h0 : 204 < bs) (h : b.length = bs - 204) : Reads (fill bs) b b := by
  rw [fill, if_neg (by omega)]
  exact reads_raw_n _ b h (by omega)

theorem nums_fit_length : ∀ (ws vs : List Nat), NumsFit ws vs → (numsBytes ws vs).length = ws.sum
  | [], [], _ => rfl
  | w :: ws, v :: vs, h => by rw [numsBytes, List.length_append, leBytes_length, nums_fit_length ws vs h.2.2, List.sum_cons]
  | [], _ :: _, h => h.elim
  | _ :: _, [], h => h.elim

theorem reads_super (s : Super) (h : ReiserSuper s) : Reads super s (reiserSuper s) := by
  obtain ⟨h1, ⟨h2, h2'⟩, h3, h4, h5, h6, h7, h8, h9, h10, h11⟩ := h
  exact Reads.bind (reads_numbers _ _ h1) (Reads.bind (reads_int_le 2 s.blockSize (by decide) (by omega)) (Reads.bind (reads_numbers _ _ h3) (Reads.bind (reads_fixed .little .eightBit (by decide) 10 s.magic h4 (by decide))
    (Reads.bind (reads_numbers _ _ h5) (Reads.bind (reads_int_le 2 s.maps (by decide) (by omega)) (Reads.bind (reads_numbers _ _ h7) (Reads.bind (reads_raw_n 16 s.uuid h8 (by decide))
      (Reads.bind (reads_fixed .little .eightBit (by decide) 16 s.label h9 (by decide)) (Reads.bind (reads_raw_n 88 s.unused h10 (by decide))
        (Reads.map (f := fun y => (⟨s.counts, s.blockSize, s.ids, s.magic, s.state, s.maps, s.rest, s.uuid, s.label, s.unused, y⟩ : Super)) (reads_fill s.blockSize s.filler h2 h11)))))))))))

/-- **C179**: the superblock is read as it was written, and every bitmap is that of the blocks it stands for, wherever it is. -/
theorem C179_file (data pad : Bytes) (s : Super) (h : ReiserSuper s) (hpad : pad.length = 65536) (hp : pad ++ reiserSuper s <+: data) (h0 : 0 < s.maps)
    (hm : ∀ i < s.maps, mapAt s.blockSize i + s.blockSize ≤ data.length) :
    ∃ e, AtPlace data Reiser.file ⟨pad, s, (List.range s.maps).map fun i => lowFirst ((data.drop (mapAt s.blockSize i)).take s.blockSize)⟩ 0 e := by
  obtain ⟨hb, hb'⟩ := h.blockSize
  obtain ⟨e, ho⟩ := at_others data s.blockSize hb (s.maps - 1) 1 (mapAt s.blockSize 0 + s.blockSize) (by omega) fun j _ h2 => hm j (by omega)
  refine ⟨e, ?_⟩
  refine at_then (reads_raw_n 65536 pad hpad (by decide)) (by simpa using hp) (Nat.zero_le _) fun hp l => ?_
  refine at_then (ys := []) (reads_super s h) (by simpa using hp) l fun _ l => ?_
  refine AtPlace.map (f := fun g => (⟨pad, s, g⟩ : Reiser.File)) ?_
  have hr : List.range s.maps = 0 :: List.range' 1 (s.maps - 1) := by
    rw [List.range_eq_range', show s.maps = s.maps - 1 + 1 by omega, List.range'_succ]
    simp
  rw [hr, List.map_cons]
  refine AtPlace.bind (at_jump data _ _) ?_
  refine AtPlace.bind (at_states data s.blockSize (mapAt s.blockSize 0) (by omega) (hm 0 h0)) ?_
  exact AtPlace.map (f := fun l => lowFirst ((data.drop (mapAt s.blockSize 0)).take s.blockSize) :: l) ho

/-- **C179**: the state `n` of a bitmap is the bit `n % 8` of its byte `n / 8`. -/
theorem C179_state : ∀ (b : Bytes) (n : Nat), (lowFirst b)[n]? = b[n / 8]?.map fun x => x.toNat / 2 ^ (n % 8) % 2
  | [], n => by simp [lowFirst]
  | x :: b, n => by
    rw [lowFirst, List.flatMap_cons]
    by_cases hn : n < 8
    · rw [List.getElem?_append_left (by simpa using hn), Nat.div_eq_of_lt hn, Nat.mod_eq_of_lt hn]
      simp [hn]
    · rw [List.getElem?_append_right (by simpa using Nat.le_of_not_lt hn)]
      have := C179_state b (n - 8)
      rw [lowFirst] at this
      rw [List.length_map, List.length_range, this, show n / 8 = (n - 8) / 8 + 1 by omega, List.getElem?_cons_succ, show (n - 8) % 8 = n % 8 by omega]

/-- **C179**: the size of a superblock is that of a block, so the first bitmap follows it. -/
theorem C179_follows (s : Super) (h : ReiserSuper s) : 65536 + (reiserSuper s).length = mapAt s.blockSize 0 := by
  obtain ⟨h1, ⟨h2, h2'⟩, h3, h4, h5, h6, h7, h8, h9, h10, h11⟩ := h
  simp only [reiserSuper, List.length_append, nums_fit_length _ _ h1, nums_fit_length _ _ h3, nums_fit_length _ _ h5, nums_fit_length _ _ h7, leBytes_length, h4, h8, h9, h10, h11, mapAt, if_pos]
  simp
  omega

/-- **C179** (disagreement): a file system of blocks of 204 bytes or less cannot be read. -/
theorem C179_small (bs : Nat) (h : bs ≤ 204) (s : InputStream) (stop k : Nat) : fill bs s stop k = .error .field := by
  by_cases hb : bs < 204
  · rw [fill, if_pos hb]
    rfl
  · rw [fill, if_neg hb, show bs - 204 = 0 by omega]
    rfl

/-- **C179**: in the first file read, the states of every bitmap have the numbers of their blocks. -/
theorem C179_numbers (n : Nat) (ns : List Nat) : (numbered 0 (n :: ns)).head? = some (List.range n) := by
  rw [numbered, List.head?_cons, List.range_eq_range']

/-- **C179** (disagreement): in any file read later, no block that exists in the first has its own number. -/
theorem C179_later (n m : Nat) (ms : List Nat) (hm : 0 < n) : ∃ l, (numbered 0 (n :: m :: ms))[1]? = some l ∧ l.length = m ∧ ∀ i (h : i < l.length), l[i] = n + i ∧ l[i] ≠ i := by
  refine ⟨List.range' n m, by simp [numbered], by simp, fun i h => ?_⟩
  rw [List.getElem_range']
  omega

/-- **C179**: the three versions are taken, by their name, padded or not. -/
theorem C179_valid (m : Bytes) : Reiser.valid m = true ↔
    Reiser.rstrip (m.take 9) = [82, 101, 73, 115, 69, 114, 51, 70, 115] ∨ Reiser.rstrip (m.take 9) = [82, 101, 73, 115, 69, 114, 70, 115] ∨ Reiser.rstrip (m.take 9) = [82, 101, 73, 115, 69, 114, 50, 70, 115] := by
  simp [Reiser.valid]

/-! ### Example -/

def reiserHead : Super :=
  ⟨[1000, 900, 1, 18, 0, 600, 10, 7, 9, 30, 30], 512, [1, 1, 1], [82, 101, 73, 115, 69, 114, 50, 70, 115, 0], [0, 3, 2], 1, [2, 0, 0, 0], List.replicate 16 9, List.replicate 16 0, List.replicate 88 0, List.replicate 308 0⟩

theorem reiser_head : ReiserSuper reiserHead where
  counts := by simp [reiserHead, NumsFit]
  blockSize := by simp [reiserHead]
  ids := by simp [reiserHead, NumsFit]
  magic := rfl
  state := by simp [reiserHead, NumsFit]
  maps := by simp [reiserHead]
  rest := by simp [reiserHead, NumsFit]
  uuid := rfl
  label := rfl
  unused := List.length_replicate
  filler := List.length_replicate

def reiserData : Bytes := (List.replicate 65536 0 ++ reiserSuper reiserHead) ++ List.replicate 512 7

example : ∃ e, AtPlace reiserData Reiser.file ⟨List.replicate 65536 0, reiserHead, (List.range 1).map fun i => lowFirst ((reiserData.drop (mapAt 512 i)).take 512)⟩ 0 e := by
  have hl := C179_follows reiserHead reiser_head
  refine C179_file reiserData (List.replicate 65536 0) reiserHead reiser_head List.length_replicate (List.prefix_append _ _) (by decide) fun i hi => ?_
  have hi : i < 1 := hi
  have : i = 0 := by omega
  subst this
  rw [reiserData, List.length_append, List.length_append, List.length_replicate, List.length_replicate, hl]
  exact Nat.le_refl _

end Hachoir.Props
