import Verif.Formats.Wmf
import Verif.Props.Pifv
import Mathlib.Tactic.IntervalCases

/-!
# C197: Windows metafiles
-/

namespace Hachoir.Props
open Spec Hachoir Hachoir.Stream Hachoir.Field Hachoir.Formats Hachoir.Formats.Wmf

/-! ## Files as they are written -/

/-- Numbers that fit into their bytes, negative ones as two's complement. -/
def WmfFits (x : Num) (v : Int) : Prop :=
  0 < x.width ∧ if x.sign then -(2 ^ (8 * x.width - 1) : Nat) ≤ v ∧ v < (2 ^ (8 * x.width - 1) : Nat) else 0 ≤ v ∧ v < (256 ^ x.width : Nat)

def wmfNum (x : Num) (v : Int) : Bytes := leBytes x.width (v % (256 ^ x.width : Nat)).toNat

def wmfNums : List Num → List Int → Bytes
  | x :: xs, v :: vs => wmfNum x v ++ wmfNums xs vs
  | _, _ => []

/-- The parameters of a function: as the layout tells and then any bytes, or any bytes if there is none. -/
inductive WmfParams : Option Layout → Func → Bytes → Prop where
  | unknown (fn : Nat) (b : Bytes) : WmfParams none ⟨fn, [], [], b⟩ b
  | fixed (front : List Num) (fn : Nat) (ns : List Int) (hn : List.Forall₂ WmfFits front ns) (b : Bytes) : WmfParams (some ⟨front, []⟩) ⟨fn, ns, [], b⟩ (wmfNums front ns ++ b)
  | counted (front : List Num) (x : Num) (again : List Num) (ha : again ≠ []) (fn : Nat) (ns : List Int) (ms : List (List Int))
      (hn : List.Forall₂ WmfFits (front ++ [x]) (ns ++ [(ms.length : Int)])) (hm : ∀ m ∈ ms, List.Forall₂ WmfFits again m) (b : Bytes) :
    WmfParams (some ⟨front ++ [x], again⟩) ⟨fn, ns ++ [(ms.length : Int)], ms, b⟩ (wmfNums (front ++ [x]) (ns ++ [(ms.length : Int)]) ++ (ms.flatMap (wmfNums again) ++ b))

/-- A record of a WMF file: its size in words, the function, the parameters. -/
structure WmfFunc (f : Func) (bytes : Bytes) : Prop where
  ex : ∃ (words : Nat) (p : Bytes), WmfParams (layout f.function) f p ∧ 6 + p.length = 2 * words ∧ words < 2 ^ 32 ∧ bytes = leBytes 4 words ++ (leBytes 2 f.function ++ p)
  fn : f.function < 65536

/-- A record of an EMF file: the function, its size in bytes, the parameters. -/
structure EmfFunc (f : Func) (bytes : Bytes) : Prop where
  ex : ∃ p : Bytes, WmfParams (layoutEmf f.function) f p ∧ 8 + p.length < 2 ^ 32 ∧ bytes = leBytes 4 f.function ++ (leBytes 4 (8 + p.length) ++ p)
  fn : f.function < 2 ^ 32

/-! ## Reading -/

theorem reads_wmf_num (x : Num) (v : Int) (h : WmfFits x v) : Reads (number x) v (wmfNum x v) := by
  obtain ⟨h0, h⟩ := h
  rw [number, wmfNum]
  cases hs : x.sign with
  | true =>
    rw [hs, if_pos rfl] at h
    rw [if_pos rfl]
    exact reads_signed_le x.width v h0 h.1 h.2
  | false =>
    rw [hs, if_neg (by decide)] at h
    rw [if_neg (by decide)]
    obtain ⟨n, rfl⟩ := Int.eq_ofNat_of_zero_le h.1
    have hn : n < 256 ^ x.width := by have := h.2; omega
    have e : (((n : Int) % ((256 ^ x.width : Nat) : Int)).toNat) = n := by
      rw [Int.emod_eq_of_lt (by omega) (by omega)]; rfl
    rw [e]
    exact Reads.rmap (f := fun v : Nat => (v : Int)) (reads_int_le x.width n h0 hn)

theorem reads_wmf_nums : ∀ (xs : List Num) (vs : List Int), List.Forall₂ WmfFits xs vs → Reads (numbers xs) vs (wmfNums xs vs)
  | [], _, h => by cases h; exact reads_rpure _
  | x :: xs, _, h => by
    cases h with
    | cons h1 h2 => exact Reads.rbind (reads_wmf_num x _ h1) (Reads.rmap (reads_wmf_nums xs _ h2))

theorem reads_wmf_times (xs : List Num) : ∀ (ms : List (List Int)), (∀ m ∈ ms, List.Forall₂ WmfFits xs m) → Reads (Rd.times (numbers xs) ms.length) ms (ms.flatMap (wmfNums xs))
  | [], _ => reads_rpure _
  | m :: ms, h => by
    rw [List.flatMap_cons]
    exact Reads.rbind (reads_wmf_nums xs m (h m (by simp))) (Reads.rmap (reads_wmf_times xs ms fun x hx => h x (by simp [hx])))

theorem reads_wmf_params (l : Option Layout) (f : Func) (p : Bytes) (h : WmfParams l f p) : ReadsAll (params f.function l) f p := by
  cases h with
  | unknown fn => exact ReadsAll.rmap (reads_pifv_content p) fun b => (⟨fn, [], [], b⟩ : Func)
  | fixed front fn ns hn b =>
    refine Reads.rbind_all (reads_wmf_nums front ns hn) ?_
    rw [roundsOf, if_pos rfl]
    exact Reads.rbind_all (xs := []) (reads_rpure _) (ReadsAll.rmap (reads_pifv_content b) fun b => (⟨fn, ns, [], b⟩ : Func))
  | counted front x again ha fn ns ms hn hm b =>
    refine Reads.rbind_all (reads_wmf_nums _ _ hn) ?_
    rw [roundsOf, if_neg ha]
    have e : ((ns ++ [(ms.length : Int)]).getLastD 0).toNat = ms.length := by simp
    rw [e]
    exact Reads.rbind_all (reads_wmf_times again ms hm) (ReadsAll.rmap (reads_pifv_content b) fun b => (⟨fn, ns ++ [(ms.length : Int)], ms, b⟩ : Func))

theorem reads_wmf_func (f : Func) (bytes : Bytes) (h : WmfFunc f bytes) : Reads func f bytes := by
  obtain ⟨⟨words, p, hp, hw, hl, rfl⟩, hf⟩ := h
  refine Reads.rbind (reads_int_le 4 words (by decide) (by omega)) (Reads.rbind (reads_int_le 2 f.function (by decide) (by omega)) ?_)
  rw [if_neg (by omega)]
  exact (reads_wmf_params _ f p hp).within _ (by omega)

theorem reads_emf_func (f : Func) (bytes : Bytes) (h : EmfFunc f bytes) : Reads funcEmf f bytes := by
  obtain ⟨⟨p, hp, hl, rfl⟩, hf⟩ := h
  refine Reads.rbind (reads_int_le 4 f.function (by decide) (by omega)) (Reads.rbind (reads_int_le 4 (8 + p.length) (by decide) (by omega)) ?_)
  rw [if_neg (by omega)]
  exact (reads_wmf_params _ f p hp).within _ (by omega)

/-- **C197** All WMF files, with and without the header of Aldus: all records are told in order, with their parameters. -/
theorem C197_wmf (apm : Bool) (a h : List Int) (ha : List.Forall₂ WmfFits (if apm then placeable else []) a) (hh : List.Forall₂ WmfFits plain h) (fs : List (Func × Bytes))
    (hf : ∀ f ∈ fs, WmfFunc f.1 f.2) (n : Nat) (hn : fs.length < n) :
    ReadsAll (wmf apm n) (a, h, fs.map Prod.fst) (wmfNums (if apm then placeable else []) a ++ (wmfNums plain h ++ fs.flatMap Prod.snd)) := by
  refine Reads.rbind_all (reads_wmf_nums _ a ha) (Reads.rbind_all (reads_wmf_nums _ h hh) ?_)
  refine ReadsAll.rmap (reads_while_map func Prod.fst Prod.snd fs n hn fun p hp => ⟨reads_wmf_func _ _ (hf p hp), ?_⟩) fun fs => (a, h, fs)
  obtain ⟨⟨words, p, _, _, _, e⟩, _⟩ := hf p hp
  rw [e]
  simp [leBytes]

/-- An EMF header: its numbers, a description behind them if the place told is 88, and padding. -/
structure EmfHead (h : EmfHeader) (bytes : Bytes) : Prop where
  fits : List.Forall₂ WmfFits emfFields h.numbers
  size : h.numbers.getD 1 0 = (bytes.length : Int)
  text : h.description = none → h.numbers.getD 18 0 ≠ 88 ∨ h.numbers.getD 17 0 = 0
  told : ∀ d ∈ h.description, h.numbers.getD 18 0 = 88 ∧ 2 * h.numbers.getD 17 0 = d.length ∧ 0 < d.length ∧ d.length ≤ 65535
  bytes : bytes = wmfNums emfFields h.numbers ++ (h.description.getD [] ++ h.padding)

theorem wmf_nums_length : ∀ (xs : List Num) (vs : List Int), List.Forall₂ WmfFits xs vs → (wmfNums xs vs).length = (xs.map Num.width).sum
  | [], _, h => by cases h; rfl
  | x :: xs, _, h => by
    cases h with
    | cons h1 h2 => rw [wmfNums, List.length_append, wmf_nums_length xs _ h2, wmfNum, leBytes_length]; simp

theorem reads_emf_header (h : EmfHeader) (bytes : Bytes) (g : EmfHead h bytes) : Reads emfHeader h bytes := by
  obtain ⟨h1, h2, h3, h4, rfl⟩ := g
  have hl := wmf_nums_length _ _ h1
  rw [show (emfFields.map Num.width).sum = 88 from by decide] at hl
  rw [List.length_append, hl] at h2
  refine Reads.rbind (reads_wmf_nums _ _ h1) ?_
  rw [h2, if_neg (by omega)]
  refine ReadsAll.within ?_ _ (by omega)
  refine Reads.rbind_all (v := h.description) ?_ (ReadsAll.rmap (reads_pifv_content h.padding) fun p => (⟨h.numbers, h.description, p⟩ : EmfHeader))
  rw [description]
  cases hd : h.description with
  | none =>
    rw [if_neg]
    · exact reads_rpure _
    · rcases h3 hd with e | e
      · exact fun c => e (by simpa using c.1)
      · rw [e]; simp
  | some d =>
    obtain ⟨a, b, c, e⟩ := h4 d hd
    have hs : 2 * (h.numbers.getD 17 0).toNat = d.length := by omega
    rw [hs, if_pos ⟨by rw [a]; rfl, by omega⟩]
    exact Reads.rmap (f := some) (reads_fixed .little .utf16le (by decide) d.length d rfl ⟨c, e⟩)

/-- **C197** All EMF files: the header with its description, and all records in order with their parameters. -/
theorem C197_emf (h : EmfHeader) (head : Bytes) (hh : EmfHead h head) (fs : List (Func × Bytes)) (hf : ∀ f ∈ fs, EmfFunc f.1 f.2) (n : Nat) (hn : fs.length < n) :
    ReadsAll (emf n) (h, fs.map Prod.fst) (head ++ fs.flatMap Prod.snd) := by
  refine Reads.rbind_all (reads_emf_header h head hh) ?_
  refine ReadsAll.rmap (reads_while_map funcEmf Prod.fst Prod.snd fs n hn fun p hp => ⟨reads_emf_func _ _ (hf p hp), ?_⟩) fun fs => (h, fs)
  obtain ⟨⟨p, _, _, e⟩, _⟩ := hf p hp
  rw [e]
  simp [leBytes]

/-! ## The tables of parameters -/

/-- The sizes of parameters in bytes, negative for numbers with a sign; behind the bar the ones that are repeated. -/
def wmfTable (fn : Nat) : Option (List Int × List Int) :=
  if fn ∈ [0x0104, 0x0106, 0x012D, 0x01F0] then some ([2], [])
  else if fn ∈ [0x020B, 0x020C] then some ([-2, -2], [])
  else if fn = 0x02FA then some ([2, 2, 2, 1, 1, 1, 1], [])
  else if fn = 0x02FC then some ([2, 1, 1, 1, 1, 2], [])
  else if fn = 0x0324 then some ([2], [-2, -2])
  else none

def emfTable (fn : Nat) : Option (List Int × List Int) :=
  if fn ∈ [9, 10, 11, 12, 27, 54] then some ([-4, -4], [])
  else if fn = 17 then some ([-4], [])
  else if fn ∈ [37, 40, 98] then some ([4], [])
  else if fn = 39 then some ([4, 4, 1, 1, 1, 1, -4], [])
  else if fn = 70 then some ([4], [1])
  else if fn ∈ [86, 87, 88, 89, 91] then some ([-4, -4, -4, -4, 4], [-2, -2])
  else if fn = 95 then some ([4, 4, 4, 4, 4, 4, 4, 4, 1, 1, 1, 1, 4, 4], [4])
  else none

def numSize (x : Num) : Int := if x.sign then -(x.width : Int) else x.width

def sizesOf (l : Layout) : List Int × List Int := (l.front.map numSize, l.again.map numSize)

/-- **C197** Which parameters a record of a WMF file has, for every function. -/
theorem C197_table (fn : Nat) : (layout fn).map sizesOf = wmfTable fn := by
  unfold layout
  split <;> first | rfl | simp_all [wmfTable]

/-- **C197** Which parameters a record of an EMF file has, for every function. -/
theorem C197_table_emf (fn : Nat) : (layoutEmf fn).map sizesOf = emfTable fn := by
  unfold layoutEmf
  split <;> first | rfl | simp_all [emfTable]

/-- **C197** The sizes of the numbers of the headers. -/
theorem C197_headers : placeable.map numSize = [4, 2, -2, -2, -2, -2, 2, 4, 2] ∧ plain.map numSize = [2, 2, 1, 1, 4, 2, 4, 2] ∧
    emfFields.map numSize = [4, 4, -4, -4, -4, -4, -4, -4, -4, -4, 4, 2, 2, 4, 4, 2, 2, 4, 4, 4, -4, -4, -4, -4] := by decide

/-- A header with a description of two characters. -/
example : EmfHead ⟨[1, 94, 0, 0, 9, 9, 0, 0, 99, -1, 0x464D4520, 0, 1, 200, 3, 1, 0, 2, 88, 0, 640, 480, 320, 240], some [65, 0, 66, 0], [7, 7]⟩
    (wmfNums emfFields [1, 94, 0, 0, 9, 9, 0, 0, 99, -1, 0x464D4520, 0, 1, 200, 3, 1, 0, 2, 88, 0, 640, 480, 320, 240] ++ ([65, 0, 66, 0] ++ [7, 7])) :=
  ⟨by simp [emfFields, WmfFits, u, i], by decide, by simp, by simp, rfl⟩

/-- A polygon with two corners. -/
example : WmfFunc ⟨0x0324, [2], [[1, -2], [3, 4]], []⟩ [8, 0, 0, 0, 0x24, 3, 2, 0, 1, 0, 0xFE, 0xFF, 3, 0, 4, 0] :=
  ⟨⟨8, _, .counted [] (u 2) [i 2, i 2] (by decide) 0x0324 [] [[1, -2], [3, 4]] (by simp [WmfFits, u]) (by simp [WmfFits, i]) [], by decide, by decide, by decide⟩, by decide⟩

/-- A comment of three bytes and a byte of padding. -/
example : EmfFunc ⟨70, [3], [[65], [66], [67]], [0]⟩ [70, 0, 0, 0, 16, 0, 0, 0, 3, 0, 0, 0, 65, 66, 67, 0] :=
  ⟨⟨_, .counted [] (u 4) [u 1] (by decide) 70 [] [[65], [66], [67]] (by simp [WmfFits, u]) (by simp [WmfFits, u]) [0], by decide, by decide⟩, by decide⟩

/-! ## The size of a file inside other data -/

/-- The last record: three words, function 0. -/
def wmfLast : Bytes := leBytes 4 3 ++ leBytes 2 0

theorem wmf_last : wmfLast = [3, 0, 0, 0, 0, 0] := by decide

/-- **C197** (partial: it holds when the bytes of the last record are nowhere before) The size told of a WMF file inside other data is the place behind its last record. -/
theorem C197_size_partial (front records rest : Bytes) (s : InputStream) (hs : stringInputStream (front ++ (records ++ (wmfLast ++ rest))) = .ok s)
    (hfar : front.length + records.length + 6 ≤ 50 * 1024 * 1024) (hfirst : ∀ j < records.length, ¬ wmfLast <+: (records ++ (wmfLast ++ rest)).drop j) :
    contentSize false s (8 * front.length) = .ok (some ((8 * (front ++ (records ++ wmfLast)).length : Nat) : Int)) := by
  obtain ⟨r, hr, hspec⟩ := _root_.Props.C05_searchBytes _ wmfLast s hs (by decide) front.length (some (50 * 1024 * 1024 * 8)) _ rfl (by simp)
  have hr' : searchBytes s [3, 0, 0, 0, 0, 0] ((8 * front.length : Nat) : Int) (some (50 * 1024 * 1024 * 8)) = .ok r := hr
  have hd : ∀ j, (front ++ (records ++ (wmfLast ++ rest))).drop (front.length + j) = (records ++ (wmfLast ++ rest)).drop j := by
    intro j
    rw [← List.drop_drop, List.drop_left]
  have hat : wmfLast <+: (front ++ (records ++ (wmfLast ++ rest))).drop (front.length + records.length) := by
    rw [hd, List.drop_left]; exact List.prefix_append _ _
  have h6 : wmfLast.length = 6 := by decide
  rw [contentSize, if_neg (by decide), hr']
  cases r with
  | none =>
    refine absurd hat (hspec _ (by omega) ?_)
    simp only [List.length_append, h6]
    omega
  | some a =>
    obtain ⟨k, rfl, h1, h2, h3, h4⟩ := hspec
    obtain ⟨j, rfl⟩ : ∃ j, k = front.length + j := ⟨k - front.length, by omega⟩
    have hj : j = records.length := by
      rcases Nat.lt_trichotomy j records.length with h | h | h
      · exact absurd (hd j ▸ h3) (hfirst j h)
      · exact h
      · exact absurd hat (h4 _ (by omega) (by omega))
    subst hj
    simp only [List.length_append, h6]
    congr 2

/-- **C197** The size is never told too large: whatever the records hold, it ends at the last record or before. -/
theorem C197_size_most (front records rest : Bytes) (s : InputStream) (hs : stringInputStream (front ++ (records ++ (wmfLast ++ rest))) = .ok s)
    (hfar : front.length + records.length + 6 ≤ 50 * 1024 * 1024) :
    ∃ n : Nat, contentSize false s (8 * front.length) = .ok (some ((8 * n : Nat) : Int)) ∧ front.length + 6 ≤ n ∧ n ≤ (front ++ (records ++ wmfLast)).length := by
  obtain ⟨r, hr, hspec⟩ := _root_.Props.C05_searchBytes _ wmfLast s hs (by decide) front.length (some (50 * 1024 * 1024 * 8)) _ rfl (by simp)
  have hr' : searchBytes s [3, 0, 0, 0, 0, 0] ((8 * front.length : Nat) : Int) (some (50 * 1024 * 1024 * 8)) = .ok r := hr
  have hat : wmfLast <+: (front ++ (records ++ (wmfLast ++ rest))).drop (front.length + records.length) := by
    rw [← List.drop_drop, List.drop_left, List.drop_left]; exact List.prefix_append _ _
  have h6 : wmfLast.length = 6 := by decide
  rw [contentSize, if_neg (by decide), hr']
  cases r with
  | none =>
    refine absurd hat (hspec _ (by omega) ?_)
    simp only [List.length_append, h6]
    omega
  | some a =>
    obtain ⟨k, rfl, h1, h2, h3, h4⟩ := hspec
    refine ⟨k + 6, ?_, by omega, ?_⟩
    · show Except.ok (some _) = _
      congr 2
    · simp only [List.length_append, h6]
      by_contra hc
      exact h4 _ (by omega) (by omega) hat

/-- An escape whose data are the bytes of the last record. -/
def wmfTrap : Func := ⟨0x0626, [], [], [3, 0, 0, 0, 0, 0]⟩

def wmfTrapBytes : Bytes := [6, 0, 0, 0, 0x26, 6, 3, 0, 0, 0, 0, 0]

/-- **C197** The size may be told too small: the bytes of the last record inside the parameters of another one are taken for it, in a file of one record and the last. -/
theorem C197_size_short : WmfFunc wmfTrap wmfTrapBytes ∧ ∀ (front rest : Bytes) (s : InputStream), stringInputStream (front ++ (wmfTrapBytes ++ (wmfLast ++ rest))) = .ok s →
    front.length ≤ 1000 → contentSize false s (8 * front.length) = .ok (some ((8 * (front ++ wmfTrapBytes).length : Nat) : Int)) := by
  refine ⟨⟨⟨6, [3, 0, 0, 0, 0, 0], .unknown _ _, by decide, by decide, by decide⟩, by decide⟩, ?_⟩
  intro front rest s hs hl
  have := C197_size_partial front [6, 0, 0, 0, 0x26, 6] (wmfLast ++ rest) s (by rw [← hs]; congr 1) (by simp; omega) (by
    intro j hj
    rw [wmf_last]
    have hj' : j < 6 := hj
    interval_cases j <;> simp)
  rw [this]
  simp [wmfTrapBytes, wmf_last]

end Hachoir.Props
