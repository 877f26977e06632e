import Verif.Formats.JpegMeta
import Verif.Props.Packed
import Verif.Props.Arj
import Verif.Props.ParseDate
import Mathlib.Tactic.Linarith
import Mathlib.Tactic.Ring
import Mathlib.Tactic.FieldSimp

/-!
# C146: JPEG images are told as they are

Specification apart from the code: the zigzag walk over a block, the tables of the JPEG standard scaled by quality as the
Independent JPEG Group does, the frame header, the JFIF header and a position written as GPS entries.
-/

namespace Hachoir.Props
open Hachoir Hachoir.Stream Hachoir.Field Hachoir.Formats Hachoir.Formats.JpegMeta

/-! ### Quantization tables -/

/-- The zigzag walk: up to the right on even diagonals, down to the left on odd ones. -/
def zigzagNext (p : Nat × Nat) : Nat × Nat :=
  if (p.1 + p.2) % 2 = 0 then
    if p.2 = 7 then (p.1 + 1, p.2) else if p.1 = 0 then (p.1, p.2 + 1) else (p.1 - 1, p.2 + 1)
  else
    if p.1 = 7 then (p.1, p.2 + 1) else if p.2 = 0 then (p.1 + 1, p.2) else (p.1 + 1, p.2 - 1)

def zigzagFrom : Nat → Nat × Nat → List (Nat × Nat)
  | 0, _ => []
  | n + 1, p => p :: zigzagFrom n (zigzagNext p)

/-- The 64 places of a block in the order they are written. -/
def zigzag : List (Nat × Nat) := zigzagFrom 64 (0, 0)

/-- A table to be written: `T r c` at row `r` and column `c`. -/
structure QTable where
  wide : Bool
  index : Nat
  T : Nat → Nat → Nat

structure QTableGood (t : QTable) : Prop where
  index : t.index < 4
  fits : ∀ r c, t.T r c < (if t.wide then 65536 else 256)

def qtableBytes (t : QTable) : Bytes :=
  beBytes 1 (joinBE [4, 4] [if t.wide then 1 else 0, t.index]) ++
    zigzag.flatMap fun p => beBytes (if t.wide then 2 else 1) (t.T p.1 p.2)

/-- What is read of it. -/
def qtableRead (t : QTable) : Table :=
  ⟨if t.wide then 1 else 0, t.index, zigzag.map fun p => (8 * p.1 + p.2, t.T p.1 p.2)⟩

theorem order_zigzag : order = zigzag.map fun p => 8 * p.1 + p.2 := by decide +kernel

theorem zip_maps {α β γ : Type} (f : α → β) (g : α → γ) : ∀ l : List α, (l.map f).zip (l.map g) = l.map fun x => (f x, g x)
  | [] => rfl
  | a :: l => by rw [List.map_cons, List.map_cons, List.zip_cons_cons, zip_maps f g l, List.map_cons]

theorem reads_coefficients (t : QTable) (h : QTableGood t) :
    Reads (coefficients (if t.wide then 1 else 0)) (zigzag.map fun p => t.T p.1 p.2)
      (zigzag.flatMap fun p => beBytes (if t.wide then 2 else 1) (t.T p.1 p.2)) := by
  have hl : 64 = zigzag.length := by decide +kernel
  unfold coefficients
  rw [hl]
  apply reads_times_map
  intro p _
  have := h.fits p.1 p.2
  cases hw : t.wide with
  | true =>
    rw [hw] at this
    exact reads_int_be 2 _ (by decide) this
  | false =>
    rw [hw] at this
    exact reads_int_be 1 _ (by decide) this

theorem reads_table (t : QTable) (h : QTableGood t) : Reads table (qtableRead t) (qtableBytes t) := by
  have hf : Fit [4, 4] [if t.wide then 1 else 0, t.index] := by
    have := h.index
    refine ⟨?_, ?_, trivial⟩
    · split <;> decide
    · show t.index < 2 ^ 4
      omega
  refine Reads.bind (reads_packed_be 1 [4, 4] _ (by decide) rfl hf) ?_
  have : ¬ 4 ≤ t.index := by have := h.index; omega
  rw [tableOf, if_neg this]
  have e : (zigzag.flatMap fun p => beBytes (if t.wide then 2 else 1) (t.T p.1 p.2)) =
      (zigzag.flatMap fun p => beBytes (if t.wide then 2 else 1) (t.T p.1 p.2)) ++ [] := by rw [List.append_nil]
  rw [e]
  refine Reads.bind (reads_coefficients t h) ?_
  rw [order_zigzag, zip_maps]
  exact reads_pure _

theorem lookup_map (f : Nat × Nat → Nat) (k : Nat × Nat → Nat) (p : Nat × Nat) : ∀ l : List (Nat × Nat), p ∈ l →
    (∀ q ∈ l, k q = k p → q = p) → (l.map fun q => (k q, f q)).lookup (k p) = some (f p)
  | [], h, _ => absurd h (by simp)
  | q :: l, h, hk => by
    rw [List.map_cons, List.lookup_cons]
    by_cases e : k q = k p
    · have := hk q (by simp) e
      subst this
      simp
    · have : (k p == k q) = false := by simpa using fun h => e h.symm
      rw [this]
      rcases List.mem_cons.1 h with rfl | h
      · exact absurd rfl e
      · exact lookup_map f k p l h fun x hx => hk x (by simp [hx])

/-- Every place of the block is visited. -/
theorem zigzag_all : ∀ r : Fin 8, ∀ c : Fin 8, (r.val, c.val) ∈ zigzag := by decide +kernel

theorem zigzag_inside : ∀ p ∈ zigzag, p.1 < 8 ∧ p.2 < 8 := by decide +kernel

theorem qtable_ne (t : QTable) (bs : Bytes) : qtableBytes t ++ bs ≠ [] := by
  intro h
  have := congrArg List.length h
  rw [qtableBytes, List.length_append, List.length_append, beBytes_length, List.length_nil] at this
  omega

theorem reads_tables : ∀ (ts : List QTable) (n : Nat), ts.length < n → (∀ t ∈ ts, QTableGood t) →
    ReadsAll (tables n) (ts.map qtableRead) (ts.flatMap qtableBytes)
  | [], n + 1, _, _ => ReadsAll.at_eof (Reads.all (reads_rpure _))
  | t :: ts, n + 1, hn, h => by
    have ih := reads_tables ts n (by simpa using hn) fun x hx => h x (by simp [hx])
    rw [List.flatMap_cons]
    refine ReadsAll.not_eof (qtable_ne t _) ?_
    refine Reads.bind_all (reads_table t (h t (by simp))) ?_
    exact ReadsAll.map ih _

theorem coeff_read (t : QTable) (r c : Nat) (hr : r < 8) (hc : c < 8) : coeff (qtableRead t) (8 * r + c) = .ok (t.T r c) := by
  have := lookup_map (fun p => t.T p.1 p.2) (fun p => 8 * p.1 + p.2) (r, c) zigzag (zigzag_all ⟨r, hr⟩ ⟨c, hc⟩) fun q hq e => by
    have := zigzag_inside q hq
    simp only at e
    exact Prod.ext (by show q.1 = r; omega) (by show q.2 = c; omega)
  unfold coeff qtableRead
  simp only at this ⊢
  rw [this]

/-- **C146.** The tables of a chunk are read one after the other, whatever they hold, and the coefficient numbered `8 r + c` is
that of row `r` and column `c`. -/
theorem C146_tables (ts : List QTable) (h : ∀ t ∈ ts, QTableGood t) (n : Nat) (hn : ts.length < n) :
    ReadsAll (tables n) (ts.map qtableRead) (ts.flatMap qtableBytes) ∧
    ∀ t ∈ ts, (qtableRead t).index = t.index ∧ ∀ r c, r < 8 → c < 8 → coeff (qtableRead t) (8 * r + c) = .ok (t.T r c) :=
  ⟨reads_tables ts n hn h, fun t _ => ⟨rfl, coeff_read t⟩⟩

/-! ### Quality -/

/-- Table K.1 of the JPEG standard: luminance, row by row. -/
def stdLuminance : List Nat := [
  16, 11, 10, 16, 24, 40, 51, 61,
  12, 12, 14, 19, 26, 58, 60, 55,
  14, 13, 16, 24, 40, 57, 69, 56,
  14, 17, 22, 29, 51, 87, 80, 62,
  18, 22, 37, 56, 68, 109, 103, 77,
  24, 35, 55, 64, 81, 104, 113, 92,
  49, 64, 78, 87, 103, 121, 120, 101,
  72, 92, 95, 98, 112, 100, 103, 99]

/-- Table K.2: chrominance. -/
def stdChrominance : List Nat := [
  17, 18, 24, 47, 99, 99, 99, 99,
  18, 21, 26, 66, 99, 99, 99, 99,
  24, 26, 56, 99, 99, 99, 99, 99,
  47, 66, 99, 99, 99, 99, 99, 99,
  99, 99, 99, 99, 99, 99, 99, 99,
  99, 99, 99, 99, 99, 99, 99, 99,
  99, 99, 99, 99, 99, 99, 99, 99,
  99, 99, 99, 99, 99, 99, 99, 99]

/-- Scaling of the Independent JPEG Group: `jpeg_quality_scaling` and `jpeg_add_quant_table` of jcparam.c, baseline. -/
def scaled (q x : Nat) : Nat :=
  let s := if q < 50 then 5000 / q else 200 - 2 * q
  max 1 (min 255 ((x * s + 50) / 100))

/-- A table written by an encoder asked for quality `q`. -/
def encoderTable (index : Nat) (base : List Nat) (q : Nat) : QTable :=
  ⟨false, index, fun r c => scaled q ((base[8 * r + c]?).getD 0)⟩

/-- The sum of a table. -/
def tableSum (t : QTable) : Nat := ((List.range 64).map fun i => t.T (i / 8) (i % 8)).sum

theorem coeff_at (t : QTable) (i : Nat) (h : i < 64) : coeff (qtableRead t) i = .ok (t.T (i / 8) (i % 8)) := by
  have := coeff_read t (i / 8) (i % 8) (by omega) (by omega)
  rwa [Nat.div_add_mod] at this

theorem sumOf_read (t : QTable) : ∀ l : List Nat, (∀ i ∈ l, i < 64) → sumOf (qtableRead t) l = .ok (l.map fun i => t.T (i / 8) (i % 8)).sum
  | [], _ => rfl
  | i :: l, h => by
    rw [sumOf, coeff_at t i (h i (by simp))]
    simp only
    rw [sumOf_read t l fun x hx => h x (by simp [hx])]
    simp

theorem sum_read (t : QTable) : sumOf (qtableRead t) (List.range 64) = .ok (tableSum t) :=
  sumOf_read t _ fun _ h => List.mem_range.1 h

theorem quality_two (t u : QTable) : quality [qtableRead t, qtableRead u] =
    search (t.T 0 2 + t.T 6 5 + u.T 0 0 + u.T 7 7) (tableSum t + tableSum u) 0 ((hashColor.zip sumColor).take 100) := by
  have s : sumAll [qtableRead t, qtableRead u] = .ok (tableSum t + tableSum u) := by
    rw [sumAll, sum_read]
    simp only
    rw [sumAll, sum_read]
    simp [sumAll]
  have h : hashOf [qtableRead t, qtableRead u] = .ok (t.T 0 2 + t.T 6 5 + u.T 0 0 + u.T 7 7) := by
    rw [hashOf, coeff_at t 2 (by decide), coeff_at t 53 (by decide), coeff_at u 0 (by decide), coeff_at u 63 (by decide)]
    rfl
  rw [quality, s, h]
  rfl

theorem quality_one (t : QTable) : quality [qtableRead t] =
    search (t.T 0 2 + t.T 6 5) (tableSum t) 0 ((hashGray.zip sumGray).take 100) := by
  have s : sumAll [qtableRead t] = .ok (tableSum t) := by
    rw [sumAll, sum_read]
    simp [sumAll]
  have h : hashOf [qtableRead t] = .ok (t.T 0 2 + t.T 6 5) := by
    rw [hashOf, coeff_at t 2 (by decide), coeff_at t 53 (by decide)]
    rfl
  rw [quality, s, h]
  rfl

theorem quality_color (q : Fin 100) :
    quality [qtableRead (encoderTable 0 stdLuminance (q.val + 1)), qtableRead (encoderTable 1 stdChrominance (q.val + 1))] =
      some (q.val + 1, false) := by
  rw [quality_two]
  revert q
  decide +kernel

theorem quality_gray (q : Fin 100) :
    quality [qtableRead (encoderTable 0 stdLuminance (q.val + 1))] = some (q.val + 1, false) := by
  rw [quality_one]
  revert q
  decide +kernel

theorem encoder_good (i : Nat) (hi : i < 4) (base : List Nat) (q : Nat) : QTableGood (encoderTable i base q) := by
  refine ⟨hi, fun r c => ?_⟩
  show scaled q _ < 256
  unfold scaled
  simp only
  omega

/-- The tables a colour (or gray) encoder writes. -/
def encoderTables (color : Bool) (q : Nat) : List QTable :=
  encoderTable 0 stdLuminance q :: if color then [encoderTable 1 stdChrominance q] else []

/-- **C146.** Of an image written with the tables of the standard scaled to quality `q`, from 1 to 100, the tables are read and the
quality told is `q`, exactly. -/
theorem C146_quality (color : Bool) (q : Nat) (h1 : 1 ≤ q) (h2 : q ≤ 100) :
    ∃ ts, ReadsAll (tables 3) ts ((encoderTables color q).flatMap qtableBytes) ∧ quality ts = some (q, false) := by
  refine ⟨(encoderTables color q).map qtableRead, reads_tables _ _ ?_ ?_, ?_⟩
  · cases color
    · exact (by decide : 1 < 3)
    · exact (by decide : 2 < 3)
  · intro t ht
    cases color
    · obtain rfl : t = _ := by simpa [encoderTables] using ht
      exact encoder_good 0 (by decide) _ _
    · rcases (by simpa [encoderTables] using ht : t = _ ∨ t = _) with rfl | rfl
      · exact encoder_good 0 (by decide) _ _
      · exact encoder_good 1 (by decide) _ _
  · have e : q - 1 + 1 = q := by omega
    cases color
    · have := quality_gray ⟨q - 1, by omega⟩
      simp only [e] at this
      exact this
    · have := quality_color ⟨q - 1, by omega⟩
      simp only [e] at this
      exact this

theorem search_least : ∀ (l : List (Nat × Nat)) (i h s : Nat) (r : Nat × Bool), search h s i l = some r → i < r.1
  | [], _, _, _, _, hr => nomatch hr
  | (a, b) :: l, i, h, s, r, hr => by
    rw [search] at hr
    by_cases c : a ≤ h ∨ b ≤ s
    · rw [if_pos c, Option.some.injEq] at hr
      rw [← hr]
      exact Nat.lt_succ_self i
    · rw [if_neg c] at hr
      have := search_least l (i + 1) h s r hr
      omega

theorem search_mono : ∀ (l : List (Nat × Nat)) (i h h' s s' : Nat), h ≤ h' → s ≤ s' → ∀ r, search h s i l = some r →
    ∃ r', search h' s' i l = some r' ∧ r'.1 ≤ r.1
  | [], _, _, _, _, _, _, _, _, hr => nomatch hr
  | (a, b) :: l, i, h, h', s, s', hh, hs, r, hr => by
    rw [search] at hr ⊢
    by_cases c : a ≤ h ∨ b ≤ s
    · rw [if_pos c, Option.some.injEq] at hr
      rw [if_pos (by omega)]
      exact ⟨_, rfl, by rw [← hr]⟩
    · rw [if_neg c] at hr
      by_cases c' : a ≤ h' ∨ b ≤ s'
      · rw [if_pos c']
        refine ⟨_, rfl, ?_⟩
        have := search_least l (i + 1) h s r hr
        show i + 1 ≤ r.1
        omega
      · rw [if_neg c']
        exact search_mono l (i + 1) h h' s s' hh hs r hr

theorem tableSum_mono (t u : QTable) (h : ∀ r c, t.T r c ≤ u.T r c) : tableSum t ≤ tableSum u := by
  unfold tableSum
  generalize List.range 64 = l
  induction l with
  | nil => simp
  | cons i l ih =>
    have := h (i / 8) (i % 8)
    simp only [List.map_cons, List.sum_cons]
    omega

/-- **C146.** Coarser tables are never told as a better quality: if a quality is told for some tables, a quality not above it is told
for tables with coefficients at least as large. -/
theorem C146_coarser (ts us : QTable × Option QTable) (h : ∀ r c, ts.1.T r c ≤ us.1.T r c)
    (h' : match ts.2, us.2 with
      | none, none => True
      | some t, some u => ∀ r c, t.T r c ≤ u.T r c
      | _, _ => False) (q : Nat × Bool) (hq : quality ((ts.1 :: ts.2.toList).map qtableRead) = some q) :
    ∃ q', quality ((us.1 :: us.2.toList).map qtableRead) = some q' ∧ q'.1 ≤ q.1 := by
  obtain ⟨t, t'⟩ := ts
  obtain ⟨u, u'⟩ := us
  have m := tableSum_mono t u h
  have h1 := h 0 2
  have h2 := h 6 5
  simp only at h1 h2
  cases t' <;> cases u' <;> simp only at h'
  · simp only [Option.toList, List.map_cons, List.map_nil] at hq ⊢
    rw [quality_one] at hq ⊢
    exact search_mono _ _ _ _ _ _ (by omega) m q hq
  · rename_i t' u'
    have m' := tableSum_mono t' u' h'
    have h3 := h' 0 0
    have h4 := h' 7 7
    simp only [Option.toList, List.map_cons, List.map_nil] at hq ⊢
    rw [quality_two] at hq ⊢
    exact search_mono _ _ _ _ _ _ (by omega) (by omega) q hq

/-! ### Frame and JFIF header -/

structure SofGood (f : Frame) : Prop where
  precision : f.precision < 256
  height : f.height < 65536
  width : f.width < 65536
  count : f.components.length < 256
  component : ∀ c ∈ f.components, c.1 < 256 ∧ Fit [4, 4] c.2.1 ∧ c.2.2 < 256

def componentBytes (c : Nat × List Nat × Nat) : Bytes := beBytes 1 c.1 ++ (beBytes 1 (joinBE [4, 4] c.2.1) ++ beBytes 1 c.2.2)

/-- A frame header, B.2.2 of the standard. -/
def sofBytes (f : Frame) : Bytes :=
  beBytes 1 f.precision ++ (beBytes 2 f.height ++ (beBytes 2 f.width ++ (beBytes 1 f.components.length ++ f.components.flatMap componentBytes)))

theorem reads_component (c : Nat × List Nat × Nat) (h : c.1 < 256 ∧ Fit [4, 4] c.2.1 ∧ c.2.2 < 256) :
    Reads component c (componentBytes c) := by
  refine Reads.bind (reads_int_be 1 _ (by decide) h.1) ?_
  refine Reads.bind (reads_packed_be 1 [4, 4] _ (by decide) rfl h.2.1) ?_
  exact Reads.map (f := fun q => (c.1, c.2.1, q)) (reads_int_be 1 _ (by decide) h.2.2)

/-- **C146.** A frame header is read as written; the width, height and colours told are those of the frame. -/
theorem C146_frame (f : Frame) (h : SofGood f) :
    Reads frame f (sofBytes f) ∧
    (1 ≤ f.width → f.width ≤ 20000 → (tellFrame f).width = some f.width) ∧
    (1 ≤ f.height → f.height ≤ 20000 → (tellFrame f).height = some f.height) ∧
    (f.precision = 8 → 1 ≤ f.components.length → f.components.length ≤ 32 →
      (tellFrame f).bits = some (f.precision * f.components.length)) ∧
    ((tellFrame f).gray = true ↔ f.components.length = 1) := by
  refine ⟨?_, ?_, ?_, ?_, ?_⟩
  · refine Reads.bind (reads_int_be 1 _ (by decide) h.precision) ?_
    refine Reads.bind (reads_int_be 2 _ (by decide) h.height) ?_
    refine Reads.bind (reads_int_be 2 _ (by decide) h.width) ?_
    refine Reads.bind (reads_int_be 1 _ (by decide) h.count) ?_
    exact Reads.map (f := fun cs => Frame.mk f.precision f.height f.width cs)
      (reads_times component componentBytes f.components fun c hc => reads_component c (h.component c hc))
  · intro a b
    exact if_pos ⟨a, b⟩
  · intro a b
    exact if_pos ⟨a, b⟩
  · intro p a b
    rw [p]
    exact if_pos ⟨by omega, by omega⟩
  · exact decide_eq_true_iff

/-- **C146, violated.** The bits per pixel of an image of 12 bits per sample are told as if it had 8, and a width above 20000,
allowed by the standard, is not told. -/
theorem C146_frame_wrong :
    ∃ f, SofGood f ∧ (tellFrame f).bits = some 24 ∧ f.precision * f.components.length = 36 ∧ f.width = 30000 ∧ (tellFrame f).width = none :=
  ⟨⟨12, 100, 30000, [(1, [1, 1], 0), (2, [1, 1], 1), (3, [1, 1], 1)]⟩,
    ⟨by decide, by decide, by decide, by decide, by simp [Fit]⟩, by decide, by decide, rfl, by decide⟩

structure App0Good (a : App0) : Prop where
  major : a.major < 256
  minor : a.minor < 256
  units : a.units < 256
  x : a.x < 65536
  y : a.y < 65536
  none : a.thumbW = 0 ∧ a.thumbH = 0 ∧ a.thumb = none

/-- A JFIF header without thumbnail. -/
def app0Bytes (a : App0) : Bytes :=
  [0x4A, 0x46, 0x49, 0x46, 0] ++ (beBytes 1 a.major ++ (beBytes 1 a.minor ++ (beBytes 1 a.units ++ (beBytes 2 a.x ++ (beBytes 2 a.y ++
    (beBytes 1 a.thumbW ++ beBytes 1 a.thumbH))))))

/-- **C146.** A JFIF header without thumbnail is read as written; a density in dots per inch is told. -/
theorem C146_jfif (a : App0) (h : App0Good a) :
    Reads app0 a (app0Bytes a) ∧ (a.units = 0 → tellDpi a = none) ∧
    (a.units = 1 → 1 ≤ a.x → a.x ≤ 10000 → 1 ≤ a.y → a.y ≤ 10000 → tellDpi a = some (some a.x, some a.y)) := by
  obtain ⟨t1, t2, t3⟩ := h.none
  refine ⟨?_, fun u => if_pos u, fun u x1 x2 y1 y2 => ?_⟩
  · refine Reads.bind (reads_fixed .big .eightBit (by decide) 5 _ rfl (by decide)) ?_
    rw [if_neg (by simp)]
    refine Reads.bind (reads_int_be 1 _ (by decide) h.major) ?_
    refine Reads.bind (reads_int_be 1 _ (by decide) h.minor) ?_
    refine Reads.bind (reads_int_be 1 _ (by decide) h.units) ?_
    refine Reads.bind (reads_int_be 2 _ (by decide) h.x) ?_
    refine Reads.bind (reads_int_be 2 _ (by decide) h.y) ?_
    refine Reads.bind (reads_int_be 1 _ (by decide) (by omega)) ?_
    rw [show beBytes 1 a.thumbH = beBytes 1 a.thumbH ++ [] by simp]
    refine Reads.bind (reads_int_be 1 _ (by decide) (by omega)) ?_
    rw [thumbOf, if_pos (by rw [t1, Nat.zero_mul])]
    refine Reads.of_eq (reads_pure _) ?_ rfl
    cases a
    simp_all
  · rw [tellDpi, if_neg (by omega), Bmp.told, if_pos ⟨x1, x2⟩, Bmp.told, if_pos ⟨y1, y2⟩]

/-- **C146, violated.** 118 dots per centimetre (300 per inch) are told as 118 dots per inch. -/
theorem C146_dpi_wrong : tellDpi ⟨1, 1, 2, 118, 118, 0, 0, none⟩ = some (some 118, some 118) := by decide

/-- **C146, violated.** The thumbnail of a JFIF header is 3 bytes for every pixel, but it is read as a palette of 256 colours followed
by one byte for every pixel: of a thumbnail of 384 pixels, which is as long as that, the first 256 pixels are shown as palette. -/
theorem C146_thumb_wrong (w h : Nat) (n : w * h = 384) (px : Bytes) (hp : px.length = 3 * (w * h)) :
    Reads (thumbOf (w * h)) (some (px.take 768, px.drop 768)) px := by
  have l1 : (px.take 768).length = 768 := by rw [List.length_take]; omega
  have l2 : (px.drop 768).length = w * h := by rw [List.length_drop]; omega
  rw [thumbOf, if_neg (by omega)]
  refine Reads.of_eq (v := some (px.take 768, px.drop 768)) (bs := px.take 768 ++ px.drop 768) ?_ rfl (List.take_append_drop _ _)
  refine Reads.bind (reads_raw_n 768 _ l1 (by decide)) ?_
  exact Reads.map (f := fun d => some (px.take 768, d)) (reads_raw_n (w * h) _ l2 (by omega))

/-! ### GpsPosition -/

/-- The directory holds entries of this tag, all with these values. -/
def GpsSays (es : List Entry) (tag : Nat) (vs : List Val) : Prop :=
  (∃ e ∈ es, e.tag = tag) ∧ ∀ e ∈ es, e.tag = tag → e.values = some vs

/-- Degrees, minutes and seconds. -/
structure GpsAngle where
  d : Rat
  m : Rat
  s : Rat

def GpsAngle.vals (a : GpsAngle) : List Val := [.num a.d, .num a.m, .num a.s]

/-- In degrees. -/
def GpsAngle.value (a : GpsAngle) : Rat := a.d + a.m / 60 + a.s / 3600

structure GpsPosition where
  north : Bool
  latitude : GpsAngle
  east : Bool
  longitude : GpsAngle
  below : Bool
  altitude : Rat
  date : List Char
  hour : Nat
  minute : Nat
  second : Nat

/-- The entries of the GPS directory that tell a position, in any order, among others. -/
structure GpsWrites (es : List Entry) (p : GpsPosition) : Prop where
  readable : ∀ e ∈ es, e.values ≠ none
  latitudeRef : GpsSays es 1 [.text [if p.north then 'N' else 'S']]
  latitude : GpsSays es 2 p.latitude.vals
  longitudeRef : GpsSays es 3 [.text [if p.east then 'E' else 'W']]
  longitude : GpsSays es 4 p.longitude.vals
  altitudeRef : GpsSays es 5 [.num (if p.below then 1 else 0)]
  altitude : GpsSays es 6 [.num p.altitude]
  time : GpsSays es 7 [.num p.hour, .num p.minute, .num p.second]
  date : GpsSays es 29 [.text p.date]

/-- A part of the variables that only entries of one tag change. -/
theorem steps_part {α : Type} (part : Gps → α) (tag : Nat) (x : α) (vs : List Val)
    (other : ∀ g e g', e.tag ≠ tag → step g e = .ok g' → part g' = part g)
    (own : ∀ g e g', e.tag = tag → e.values = some vs → step g e = .ok g' → part g' = x) :
    ∀ (es : List Entry) (g g' : Gps), (∀ e ∈ es, e.tag = tag → e.values = some vs) → steps g es = .ok g' →
      (part g = x ∨ ∃ e ∈ es, e.tag = tag) → part g' = x
  | [], g, g', _, hg, h => by
    cases hg
    rcases h with h | ⟨e, he, _⟩
    · exact h
    · simp at he
  | e :: es, g, g', hv, hg, h => by
    rw [steps] at hg
    cases h1 : step g e with
    | error _ => rw [h1] at hg; exact nomatch hg
    | ok g1 =>
      rw [h1] at hg
      refine steps_part part tag x vs other own es g1 g' (fun e he => hv e (by simp [he])) hg ?_
      by_cases ht : e.tag = tag
      · exact .inl (own g e g1 ht (hv e (by simp) ht) h1)
      · rcases h with h | ⟨e', he', h'⟩
        · exact .inl ((other g e g1 ht h1).trans h)
        · rcases List.mem_cons.1 he' with rfl | he'
          · exact absurd h' ht
          · exact .inr ⟨e', he', h'⟩

theorem steps_says {α : Type} (part : Gps → α) (tag : Nat) (x : α) (vs : List Val)
    (other : ∀ g e g', e.tag ≠ tag → step g e = .ok g' → part g' = part g)
    (own : ∀ g e g', e.tag = tag → e.values = some vs → step g e = .ok g' → part g' = x)
    (es : List Entry) (g g' : Gps) (h : GpsSays es tag vs) (hg : steps g es = .ok g') : part g' = x :=
  steps_part part tag x vs other own es g g' h.2 hg (.inr h.1)

theorem steps_ok : ∀ (es : List Entry) (g : Gps), (∀ e ∈ es, ∀ g, ∃ g', step g e = .ok g') → ∃ g', steps g es = .ok g'
  | [], g, _ => ⟨g, rfl⟩
  | e :: es, g, h => by
    obtain ⟨g1, h1⟩ := h e (by simp) g
    rw [steps, h1]
    exact steps_ok es g1 fun e he => h e (by simp [he])

theorem gps_map_ok {α β : Type} {x : Except PyErr α} {f : α → β} {b : β} (h : x.map f = .ok b) : ∃ a, x = .ok a ∧ b = f a := by
  cases x with
  | error _ => exact nomatch h
  | ok a => exact ⟨a, rfl, (Except.ok.inj h).symm⟩

/-- What an entry changes. -/
theorem step_other (g : Gps) (e : Entry) (g' : Gps) (h : step g e = .ok g') :
    (e.tag ≠ 1 → g'.latitudeRef = g.latitudeRef) ∧ (e.tag ≠ 2 → g'.latitude = g.latitude) ∧
    (e.tag ≠ 3 → g'.longitudeRef = g.longitudeRef) ∧ (e.tag ≠ 4 → g'.longitude = g.longitude) ∧
    (e.tag ≠ 5 → g'.altitudeRef = g.altitudeRef) ∧ (e.tag ≠ 6 → g'.altitude = g.altitude) ∧
    (e.tag ≠ 7 → g'.timestamp = g.timestamp) ∧ (e.tag ≠ 29 → g'.datestamp = g.datestamp) := by
  rw [step] at h
  cases hv : e.values with
  | none => rw [hv] at h; exact nomatch h
  | some vs =>
    rw [hv] at h
    simp only at h
    split_ifs at h with c1 c3 c5 c2 c4 c6 c29 c7
    all_goals first
      | (obtain ⟨a, _, rfl⟩ := gps_map_ok h; simp [*])
      | (cases h; simp [*])

theorem toString_hms (p : GpsPosition) : joined [.num p.hour, .num p.minute, .num p.second] =
    .ok [(toString (p.hour : Int)).toList, (toString (p.minute : Int)).toList, (toString (p.second : Int)).toList] := by
  have w : ∀ n : Nat, whole (.num (n : Rat)) = .ok (toString (n : Int)).toList := by
    intro n
    rw [whole]
    have : ((n : Rat).num.tdiv (n : Rat).den) = (n : Int) := by simp
    rw [this]
  rw [joined, w]
  simp only
  rw [joined, w]
  simp only
  rw [joined, w]
  rfl

/-- `h:m:s` as the code writes it. -/
def shownTime (h m s : Nat) : List Char :=
  (toString (h : Int)).toList ++ ':' :: ((toString (m : Int)).toList ++ ':' :: (toString (s : Int)).toList)

theorem degrees_value (a : GpsAngle) : degrees a.vals = .ok a.value := by
  rw [GpsAngle.vals, degrees, GpsAngle.value]
  congr 1
  ring

theorem angle_value (b : Bool) (a : GpsAngle) : angle (some (if b then 1 else -1)) (some a.vals) = .ok (some (if b then a.value else -a.value)) := by
  have := degrees_value a
  rw [GpsAngle.vals] at this ⊢
  rw [angle, this]
  cases b <;> rfl

/-- **C146.** A position written in a GPS directory is told, whatever the order of the entries and whatever other entries there are:
north and east are positive, south, west and below the sea negative; the date is told with the time.  Only an altitude of 0 is not told. -/
theorem C146_position_partial (es : List Entry) (p : GpsPosition) (h : GpsWrites es p) (hd : p.date ≠ []) :
    readGps es = ⟨some (if p.north then p.latitude.value else -p.latitude.value), some (if p.east then p.longitude.value else -p.longitude.value),
      (if p.altitude = 0 then none else some (if p.below then -p.altitude else p.altitude)),
      some (p.date ++ ' ' :: shownTime p.hour p.minute p.second)⟩ := by
  obtain ⟨g, hg⟩ := steps_ok es {} fun e he g => by
    have hr := h.readable e he
    rw [step]
    cases hv : e.values with
    | none => exact absurd hv hr
    | some vs =>
      simp only
      have e1 : e.tag = 1 → vs = _ := fun t => Option.some.inj (hv.symm.trans (h.latitudeRef.2 e he t))
      have e3 : e.tag = 3 → vs = _ := fun t => Option.some.inj (hv.symm.trans (h.longitudeRef.2 e he t))
      have e5 : e.tag = 5 → vs = _ := fun t => Option.some.inj (hv.symm.trans (h.altitudeRef.2 e he t))
      have e6 : e.tag = 6 → vs = _ := fun t => Option.some.inj (hv.symm.trans (h.altitude.2 e he t))
      have e29 : e.tag = 29 → vs = _ := fun t => Option.some.inj (hv.symm.trans (h.date.2 e he t))
      have e7 : e.tag = 7 → vs = _ := fun t => Option.some.inj (hv.symm.trans (h.time.2 e he t))
      split_ifs with c1 c3 c5 c2 c4 c6 c29 c7
      · rw [e1 c1]; exact ⟨_, rfl⟩
      · rw [e3 c3]; exact ⟨_, rfl⟩
      · rw [e5 c5]; exact ⟨_, rfl⟩
      · exact ⟨_, rfl⟩
      · exact ⟨_, rfl⟩
      · rw [e6 c6]; exact ⟨_, rfl⟩
      · rw [e29 c29]; exact ⟨_, rfl⟩
      · rw [e7 c7, toString_hms]; exact ⟨_, rfl⟩
      · exact ⟨_, rfl⟩
  have g1 : g.latitudeRef = some (if p.north then 1 else -1) := steps_says (·.latitudeRef) 1 _ _ (fun g e g' ht hs => (step_other g e g' hs).1 ht)
    (fun g e g' ht hv hs => by
      rw [step, hv] at hs
      simp only [ht, if_true] at hs
      cases hs
      cases p.north <;> rfl) es _ g h.latitudeRef hg
  have g2 : g.latitude = some p.latitude.vals := steps_says (·.latitude) 2 _ _ (fun g e g' ht hs => (step_other g e g' hs).2.1 ht)
    (fun g e g' ht hv hs => by
      rw [step, hv] at hs
      simp only [ht] at hs
      cases hs
      rfl) es _ g h.latitude hg
  have g3 : g.longitudeRef = some (if p.east then 1 else -1) := steps_says (·.longitudeRef) 3 _ _ (fun g e g' ht hs => (step_other g e g' hs).2.2.1 ht)
    (fun g e g' ht hv hs => by
      rw [step, hv] at hs
      simp only [ht] at hs
      cases hs
      cases p.east <;> rfl) es _ g h.longitudeRef hg
  have g4 : g.longitude = some p.longitude.vals := steps_says (·.longitude) 4 _ _ (fun g e g' ht hs => (step_other g e g' hs).2.2.2.1 ht)
    (fun g e g' ht hv hs => by
      rw [step, hv] at hs
      simp only [ht] at hs
      cases hs
      rfl) es _ g h.longitude hg
  have g5 : g.altitudeRef = if p.below then -1 else 1 := steps_says (·.altitudeRef) 5 _ _ (fun g e g' ht hs => (step_other g e g' hs).2.2.2.2.1 ht)
    (fun g e g' ht hv hs => by
      rw [step, hv] at hs
      simp only [ht] at hs
      cases hs
      cases p.below <;> simp) es _ g h.altitudeRef hg
  have g6 : g.altitude = some (.num p.altitude) := steps_says (·.altitude) 6 _ _ (fun g e g' ht hs => (step_other g e g' hs).2.2.2.2.2.1 ht)
    (fun g e g' ht hv hs => by
      rw [step, hv] at hs
      simp only [ht] at hs
      cases hs
      rfl) es _ g h.altitude hg
  have g7 : g.timestamp = some (shownTime p.hour p.minute p.second) := steps_says (·.timestamp) 7 _ _ (fun g e g' ht hs => (step_other g e g' hs).2.2.2.2.2.2.1 ht)
    (fun g e g' ht hv hs => by
      rw [step, hv] at hs
      simp only [ht, toString_hms] at hs
      cases hs
      simp [shownTime, List.intercalate]) es _ g h.time hg
  have g8 : g.datestamp = some (.text p.date) := steps_says (·.datestamp) 29 _ _ (fun g e g' ht hs => (step_other g e g' hs).2.2.2.2.2.2.2 ht)
    (fun g e g' ht hv hs => by
      rw [step, hv] at hs
      simp only [ht] at hs
      cases hs
      rfl) es _ g h.date hg
  have a : heightOf (if p.below then -1 else 1) (some (.num p.altitude)) =
      .ok (if p.altitude = 0 then none else some (if p.below then -p.altitude else p.altitude)) := by
    rw [heightOf]
    cases p.below <;> rfl
  have d : dateOf (some (shownTime p.hour p.minute p.second)) (some (.text p.date)) =
      .ok (some (p.date ++ ' ' :: shownTime p.hour p.minute p.second)) := by
    have : shownTime p.hour p.minute p.second ≠ [] := by simp [shownTime]
    rw [dateOf, if_neg hd, if_neg this]
  rw [readGps, hg]
  simp only
  rw [g1, g2, angle_value]
  simp only
  rw [g3, g4, angle_value]
  simp only
  rw [g5, g6, a]
  simp only
  rw [g7, g8, d]

/-- **C146, violated.** A position at sea level: the altitude is not told. -/
theorem C146_sea_level_wrong (es : List Entry) (p : GpsPosition) (h : GpsWrites es p) (hd : p.date ≠ []) (h0 : p.altitude = 0) :
    (readGps es).altitude = none := by
  rw [C146_position_partial es p h hd, h0]
  rfl

/-! ### The date of the position -/

theorem shown_number (n : Nat) (h : n < 60) : (toString (n : Int)).toList = if n < 10 then Metadata.padded 1 n else Metadata.padded 2 n := by
  have : ∀ n : Fin 60, (toString (n.val : Int)).toList = if n.val < 10 then Metadata.padded 1 n.val else Metadata.padded 2 n.val := by
    decide +kernel
  exact this ⟨n, h⟩

/-- A date as GPS directories hold it, `YYYY:MM:DD`. -/
def gpsDate (y m d : Nat) : List Char := Metadata.padded 4 y ++ [':'] ++ (Metadata.padded 2 m ++ [':'] ++ Metadata.padded 2 d)

theorem shown_field (n : Nat) (h : n < 60) : CleanField (toString (n : Int)).toList ∧ Denotes (toString (n : Int)).toList n ∧
    (toString (n : Int)).toList.length = if n < 10 then 1 else 2 := by
  rw [shown_number n h]
  by_cases c : n < 10
  · rw [if_pos c, if_pos c]
    exact ⟨padded_clean 1 n (by decide) (by omega), padded_denotes 1 n (by omega), padded_length 1 n⟩
  · rw [if_neg c, if_neg c]
    exact ⟨padded_clean 2 n (by decide) (by omega), padded_denotes 2 n (by omega), padded_length 2 n⟩

theorem told_separated (y m d h mi s : Nat) (g : GoodDay y m d) (hh : h < 24) (hm : mi < 60) (hs : s < 60) :
    Separated [Metadata.padded 4 y, Metadata.padded 2 m, Metadata.padded 2 d, (toString (h : Int)).toList, (toString (mi : Int)).toList,
      (toString (s : Int)).toList] (gpsDate y m d ++ ' ' :: shownTime h mi s) := by
  obtain ⟨s1, s2, s3⟩ := good_day_small _ _ _ g
  have sep : ∀ c, c ∈ ['-', '/', '.', ':', ' '] → Separator [c] := fun c hc =>
    Or.inr ⟨by simp, fun x hx => by rw [List.mem_singleton.1 hx]; exact hc⟩
  have := Separated.cons _ _ _ _ (padded_clean 4 y (by decide) s1) (sep ':' (by simp)) (.cons _ _ _ _ (padded_clean 2 m (by decide) s2) (sep ':' (by simp))
    (.cons _ _ _ _ (padded_clean 2 d (by decide) s3) (sep ' ' (by simp)) (.cons _ _ _ _ (shown_field h (by omega)).1 (sep ':' (by simp))
      (.cons _ _ _ _ (shown_field mi hm).1 (sep ':' (by simp)) (.one _ (shown_field s hs).1)))))
  refine Eq.mp ?_ this
  congr 1
  simp [gpsDate, shownTime]

theorem told_means (y m d h mi s : Nat) (g : GoodDay y m d) (hh : h < 24) (hm : mi < 60) (hs : s < 60) (r : Metadata.Parsed) :
    Metadata.parseNumeric (gpsDate y m d ++ ' ' :: shownTime h mi s) = some r ↔
    Means [Metadata.padded 4 y, Metadata.padded 2 m, Metadata.padded 2 d, (toString (h : Int)).toList, (toString (mi : Int)).toList,
      (toString (s : Int)).toList] r := by
  obtain ⟨s1, s2, s3⟩ := good_day_small _ _ _ g
  have sp := told_separated y m d h mi s g hh hm hs
  obtain ⟨e1, e2, e3⟩ := separated_ends _ _ sp fun f hf => by
    simp only [List.mem_cons, List.not_mem_nil, or_false] at hf
    rcases hf with rfl | rfl | rfl | rfl | rfl | rfl
    · exact (padded_denotes 4 y s1).1
    · exact (padded_denotes 2 m s2).1
    · exact (padded_denotes 2 d s3).1
    · exact (shown_field h (by omega)).2.1.1
    · exact (shown_field mi hm).2.1.1
    · exact (shown_field s hs).2.1.1
  have st := stripText_core [] _ [] (by simp) (by simp) e1 e2 e3
  rw [List.nil_append, List.append_nil] at st
  unfold Metadata.parseNumeric
  rw [st, split_of_separated _ _ sp, parseFields_iff]

/-- **C146.** The date and time of a position are read from the text told if the minutes have two digits. -/
theorem C146_date_partial (y m d h mi s : Nat) (g : GoodDay y m d) (hh : h < 24) (hm : mi < 60) (hs : s < 60) (h10 : 10 ≤ mi) :
    Metadata.parseNumeric (gpsDate y m d ++ ' ' :: shownTime h mi s) = some (.datetime ⟨y, m, d, h, mi, s, 0⟩) := by
  obtain ⟨s1, s2, s3⟩ := good_day_small _ _ _ g
  rw [told_means y m d h mi s g hh hm hs]
  have fh := (shown_field h (by omega)).2
  have fm := (shown_field mi hm).2
  have fs := (shown_field s hs).2
  rw [if_neg (by omega)] at fm
  refine .yearFirst _ _ _ _ _ _ _ _ _ _ _ _ (padded_denotes 4 _ s1) (padded_denotes 2 _ s2) (padded_denotes 2 _ s3)
    (padded_length 4 _) (padded_length 2 _) (padded_length 2 _) g ⟨fh.1, fm.1, fs.1, ?_, fm.2, ?_, hh, hm, hs⟩
  · rw [fh.2]; split <;> simp
  · rw [fs.2]; split <;> simp

/-- **C146, violated.** In the first ten minutes of an hour it is not: the minutes are told with one digit, and dates need two. -/
theorem C146_date_wrong (y m d h mi s : Nat) (g : GoodDay y m d) (hh : h < 24) (hs : s < 60) (h10 : mi < 10) :
    Metadata.parseNumeric (gpsDate y m d ++ ' ' :: shownTime h mi s) = none := by
  cases e : Metadata.parseNumeric (gpsDate y m d ++ ' ' :: shownTime h mi s) with
  | none => rfl
  | some r =>
    rw [told_means y m d h mi s g hh (by omega) hs] at e
    have fm := (shown_field mi (by omega)).2.2
    rw [if_pos h10] at fm
    exfalso
    cases e with
    | yearFirst _ _ _ _ _ _ _ _ _ _ _ _ _ _ _ _ _ _ _ t =>
      have := t.2.2.2.2.1
      omega
    | monthFirst _ _ _ _ _ _ _ _ _ _ _ _ _ _ _ _ _ _ _ t =>
      have := t.2.2.2.2.1
      omega

/-! ### Examples -/

/-- Mont Blanc, with the entries in an unusual order. -/
example : readGps [⟨29, some [.text "2009:05:17".toList]⟩, ⟨6, some [.num 4808]⟩, ⟨5, some [.num 0]⟩, ⟨4, some [.num 6, .num 51, .num 54]⟩,
    ⟨3, some [.text ['E']]⟩, ⟨2, some [.num 45, .num 49, .num 57]⟩, ⟨1, some [.text ['N']]⟩, ⟨18, some [.text "WGS-84".toList]⟩,
    ⟨7, some [.num 7, .num 30, .num 5]⟩] = ⟨some (54999 / 1200), some (4119 / 600), some 4808, some "2009:05:17 7:30:5".toList⟩ := by
  refine (C146_position_partial _ ⟨true, ⟨45, 49, 57⟩, true, ⟨6, 51, 54⟩, false, 4808, "2009:05:17".toList, 7, 30, 5⟩ ?_ (by decide)).trans ?_
  · constructor <;> simp [GpsSays, GpsAngle.vals]
  · norm_num [GpsAngle.value, shownTime]
    decide

example : Metadata.parseNumeric "2009:05:17 7:30:5".toList = some (.datetime ⟨2009, 5, 17, 7, 30, 5, 0⟩) :=
  C146_date_partial 2009 5 17 7 30 5 (by simp [GoodDay, Spec.Day.Valid, Spec.monthLength]) (by decide) (by decide) (by decide) (by decide)

end Hachoir.Props
