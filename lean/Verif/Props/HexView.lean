import Verif.Wx.HexView
import Verif.Props.FileCache

/-!
# C183: the window of bytes
-/

namespace Hachoir.Props
open Hachoir Hachoir.Wx

/-! ### Specification -/

/-- The bytes from `start` to `stop` are on whole rows of the window at `v`. -/
def InView (l : Layout) (v start stop : Nat) : Prop := ∀ a, start ≤ a → a < stop → v ≤ a / l.cols * l.char ∧ a / l.cols * l.char + l.char ≤ v + l.height

/-- So far is it from one place to another. -/
def far (u v : Nat) : Nat := (u - v) + (v - u)

/-! ### Proofs -/

theorem last_row (c a stop : Nat) (hc : 0 < c) (h : a < stop) : a / c + 1 ≤ (stop + c - 1) / c := by
  rw [Nat.le_div_iff_mul_le hc]
  have := Nat.div_mul_le_self a c
  rw [Nat.add_mul]
  omega

theorem row_last (c stop : Nat) (hc : 0 < c) (h : 0 < stop) : (stop + c - 1) / c = (stop - 1) / c + 1 := by
  rw [show stop + c - 1 = (stop - 1) + c by omega, Nat.add_div_right _ hc]

/-- Where the window is to be, so that all rows are in view. -/
theorem view_of (l : Layout) (hc : 0 < l.cols) (v start stop : Nat) (h1 : v ≤ start / l.cols * l.char) (h2 : (stop + l.cols - 1) / l.cols * l.char ≤ v + l.height) : InView l v start stop := by
  intro a ha hs
  have e1 := Nat.mul_le_mul_right l.char (Nat.div_le_div_right (c := l.cols) ha)
  have e2 := Nat.mul_le_mul_right l.char (last_row l.cols a stop hc hs)
  rw [Nat.add_mul] at e2
  omega

/-- And only there. -/
theorem of_view (l : Layout) (hc : 0 < l.cols) (v start stop : Nat) (hs : start < stop) (h : InView l v start stop) : v ≤ start / l.cols * l.char ∧ (stop + l.cols - 1) / l.cols * l.char ≤ v + l.height := by
  refine ⟨(h start (Nat.le_refl _) hs).1, ?_⟩
  have := (h (stop - 1) (by omega) (by omega)).2
  rw [row_last l.cols stop hc (by omega), Nat.add_mul]
  omega

theorem total_rows (l : Layout) (size stop : Nat) (h : stop ≤ size) : (stop + l.cols - 1) / l.cols * l.char ≤ l.total size :=
  Nat.le_trans (Nat.mul_le_mul_right _ (Nat.div_le_div_right (by omega))) (Nat.le_max_left _ _)

/-- **C183**: when a field is selected that has room in the window, all of its bytes are in view. -/
theorem C183_visible (l : Layout) (hc : 0 < l.cols) (size cur start stop : Nat) (hs : start < stop) (hz : stop ≤ size)
    (hroom : ((stop + l.cols - 1) / l.cols - start / l.cols) * l.char ≤ l.height) : InView l (scrollTo l size cur start stop) start stop := by
  have hge := total_rows l size stop hz
  have hm : l.height ≤ l.total size := Nat.le_max_right _ _
  have hse := Nat.le_trans (Nat.div_le_div_right (c := l.cols) (Nat.le_of_lt hs)) (Nat.div_le_div_right (c := l.cols) (show stop ≤ stop + l.cols - 1 by omega))
  refine view_of l hc _ start stop ?_ ?_ <;> unfold scrollTo <;> simp only
  all_goals
    generalize start / l.cols = S at *
    generalize (stop + l.cols - 1) / l.cols = E at *
    have hr : (l.rows : Int) - 2 = (l.height / l.char : Nat) := by
      unfold Layout.rows
      omega
    rw [hr]
    have hrow := Nat.div_mul_le_self l.height l.char
    generalize l.height / l.char = R at *
    rw [Nat.sub_mul] at hroom
    have e2 : (((E : Int) - (R : Int)) * l.char) = (E * l.char : Nat) - ((R * l.char : Nat) : Int) := by
      rw [Int.sub_mul]
      push_cast
      rfl
    have e1 : (S : Int) * l.char = (S * l.char : Nat) := by push_cast; rfl
    have hSE := Nat.mul_le_mul_right l.char hse
    rw [e1, e2]
    split
    · unfold scroll
      omega
    · next hlt =>
      have hER : E * l.char ≤ S * l.char + R * l.char := by
        rw [← Nat.add_mul]
        exact Nat.mul_le_mul_right _ (by omega)
      split
      · omega
      · split <;> unfold scroll <;> omega

/-- **C183**: and the window moves no further than it must: any other place at which all rows are within the whole rows of the window is as far or further. -/
theorem C183_least (l : Layout) (size cur start stop u : Nat) (hcur : cur ≤ l.total size - l.height) (hz : stop ≤ size)
    (hfit : (stop + l.cols - 1) / l.cols < start / l.cols + l.height / l.char)
    (h1 : u ≤ start / l.cols * l.char) (h2 : (stop + l.cols - 1) / l.cols * l.char ≤ u + l.height / l.char * l.char) :
    far cur (scrollTo l size cur start stop) ≤ far cur u := by
  have hge := total_rows l size stop hz
  have hm : l.height ≤ l.total size := Nat.le_max_right _ _
  unfold scrollTo
  simp only
  generalize start / l.cols = S at *
  generalize (stop + l.cols - 1) / l.cols = E at *
  have hr : (l.rows : Int) - 2 = (l.height / l.char : Nat) := by
    unfold Layout.rows
    omega
  rw [hr]
  have hrow := Nat.div_mul_le_self l.height l.char
  generalize l.height / l.char = R at *
  have e2 : (((E : Int) - (R : Int)) * l.char) = (E * l.char : Nat) - ((R * l.char : Nat) : Int) := by
    rw [Int.sub_mul]
    push_cast
    rfl
  have e1 : (S : Int) * l.char = (S * l.char : Nat) := by push_cast; rfl
  rw [e1, e2, if_neg (by omega)]
  have hER : E * l.char ≤ S * l.char + R * l.char := by
    rw [← Nat.add_mul]
    exact Nat.mul_le_mul_right _ (by omega)
  unfold far
  split
  · omega
  · split <;> unfold scroll <;> omega

/-- **C183**: a field larger than the window is shown from its first row on, if the file goes on below. -/
theorem C183_large (l : Layout) (size cur start stop : Nat) (h : start / l.cols + l.height / l.char ≤ (stop + l.cols - 1) / l.cols)
    (hz : start / l.cols * l.char + l.height ≤ l.total size) : scrollTo l size cur start stop = start / l.cols * l.char := by
  unfold scrollTo
  simp only
  rw [if_pos (by unfold Layout.rows; omega), scroll]
  omega

/-- The place at which the window ends up, when the rows up to `b` and from `a` have room in `c`, and it can go up to `m`. -/
def landing (a b c m v : Nat) : Nat := if b ≤ v + c ∧ v ≤ a then v else if a ≤ v then min a m else min (b - c) m

theorem landing_again (a b c m v : Nat) (hv : v ≤ m) (h : b ≤ a + c) : landing a b c m (landing a b c m v) = landing a b c m v := by
  by_cases h1 : b ≤ v + c ∧ v ≤ a
  · have e : landing a b c m v = v := if_pos h1
    rw [e, e]
  · by_cases h2 : a ≤ v
    · have e : landing a b c m v = a := by
        rw [landing, if_neg h1, if_pos h2]
        omega
      rw [e, landing, if_pos (by omega)]
    · have e : landing a b c m v = min (b - c) m := by rw [landing, if_neg h1, if_neg h2]
      rw [e]
      by_cases h3 : b ≤ min (b - c) m + c ∧ min (b - c) m ≤ a
      · rw [landing, if_pos h3]
      · rw [landing, if_neg h3, if_neg (by omega)]

theorem scroll_landing (l : Layout) (size v start stop : Nat) (hfit : (stop + l.cols - 1) / l.cols < start / l.cols + l.height / l.char) :
    scrollTo l size v start stop = landing (start / l.cols * l.char) ((stop + l.cols - 1) / l.cols * l.char) (l.height / l.char * l.char) (l.total size - l.height) v := by
  unfold scrollTo
  simp only
  generalize start / l.cols = S at *
  generalize (stop + l.cols - 1) / l.cols = E at *
  have hr : (l.rows : Int) - 2 = (l.height / l.char : Nat) := by
    unfold Layout.rows
    omega
  rw [hr]
  generalize l.height / l.char = R at *
  have e2 : (((E : Int) - (R : Int)) * l.char) = (E * l.char : Nat) - ((R * l.char : Nat) : Int) := by
    rw [Int.sub_mul]
    push_cast
    rfl
  have e1 : (S : Int) * l.char = (S * l.char : Nat) := by push_cast; rfl
  have hER : E * l.char ≤ S * l.char + R * l.char := by
    rw [← Nat.add_mul]
    exact Nat.mul_le_mul_right _ (by omega)
  rw [e1, e2, if_neg (by omega), landing]
  generalize S * l.char = a at *
  generalize E * l.char = b at *
  generalize R * l.char = c at *
  by_cases h1 : b ≤ v + c ∧ v ≤ a
  · rw [if_pos h1, if_pos (by omega)]
  · rw [if_neg h1, if_neg (by omega)]
    by_cases h2 : a ≤ v
    · rw [if_pos h2, if_pos (by omega), scroll]
      omega
    · rw [if_neg h2, if_neg (by omega), scroll]
      congr 1
      omega

/-- **C183**: selecting the same field again does not move the window. -/
theorem C183_again (l : Layout) (size cur start stop : Nat) (hh : cur ≤ l.total size - l.height) :
    scrollTo l size (scrollTo l size cur start stop) start stop = scrollTo l size cur start stop := by
  by_cases hfit : (stop + l.cols - 1) / l.cols < start / l.cols + l.height / l.char
  · rw [scroll_landing l size _ _ _ hfit, scroll_landing l size _ _ _ hfit]
    refine landing_again _ _ _ _ _ hh ?_
    rw [← Nat.add_mul]
    exact Nat.mul_le_mul_right _ (by omega)
  · have h : ∀ c, scrollTo l size c start stop = scroll l size (start / l.cols * l.char) := fun c => by
      unfold scrollTo
      simp only
      rw [if_pos (by unfold Layout.rows; omega)]
    rw [h, h]

/-- **C183**: a byte is marked, in its row and once, exactly if it is one of the field and in one of the rows drawn. -/
theorem C183_marked (l : Layout) (hc : 0 < l.cols) (cur start stop a row : Nat) (ha : (scrollAddr l cur).1 ≤ a) :
    (∃ e ∈ highlight l cur start stop, e.1 = row ∧ e.2.1 ≤ a ∧ a < e.2.2) ↔ start ≤ a ∧ a < stop ∧ row = (a - (scrollAddr l cur).1) / l.cols ∧ row < l.rows := by
  unfold highlight
  simp only [List.mem_filterMap, List.mem_range]
  generalize (scrollAddr l cur).1 = top at *
  have hrow : ∀ r, (top + r * l.cols ≤ a ∧ a < top + r * l.cols + l.cols) ↔ r = (a - top) / l.cols := by
    intro r
    have hd := Nat.div_add_mod (a - top) l.cols
    have hm := Nat.mod_lt (a - top) hc
    constructor
    · intro h
      refine (Nat.div_eq_of_lt_le ?_ ?_).symm
      · omega
      · rw [Nat.succ_mul]; omega
    · intro h
      subst h
      rw [Nat.mul_comm] at hd
      omega
  constructor
  · rintro ⟨e, ⟨r, hr, he⟩, h1, h2, h3⟩
    split at he
    · cases he
    · simp only [Option.some.injEq] at he
      subst he
      simp only at h1 h2 h3
      subst h1
      refine ⟨by omega, by omega, (hrow r).mp (by omega), hr⟩
  · rintro ⟨h1, h2, h3, h4⟩
    have := (hrow row).mpr h3
    refine ⟨(row, max start (top + row * l.cols), min stop (top + row * l.cols + l.cols)), ⟨row, h4, ?_⟩, rfl, by simp only; omega, by simp only; omega⟩
    rw [if_neg (by omega)]

/-- **C183**: every row drawn has the bytes of the file at the address it tells, whatever was drawn before. -/
theorem C183_painted (size : Nat) (hs : 0 < size) (l : Layout) (cur : Nat) (data : Bytes) (pos : Nat) (ops : List CacheOp) :
    ∃ text, paintText size l cur (ops.foldl (fun c o => cacheStep size o c) ⟨data, pos, []⟩) = .ok text ∧ ∀ e ∈ paint l cur text, e.2.1 = (data.drop e.1).take l.cols := by
  refine ⟨_, (C182_get data size pos _ _ hs (Nat.le_add_right _ _) ops).1, fun e he => ?_⟩
  unfold paint at he
  obtain ⟨r, hr, rfl⟩ := List.mem_map.mp he
  have hr := List.mem_range.mp hr
  simp only
  rw [Nat.add_sub_cancel_left, List.drop_take, List.drop_drop, List.take_take]
  congr 1
  have : r * l.cols + l.cols ≤ l.cols * l.rows := by
    rw [← Nat.succ_mul, Nat.mul_comm l.cols]
    exact Nat.mul_le_mul_right _ hr
  omega

/-- **C183**: every row is drawn where its address is in the whole, and the rows drawn fill the window. -/
theorem C183_place (l : Layout) (hc : 0 < l.cols) (hh : 0 < l.char) (cur : Nat) (text : Bytes) :
    (∀ e ∈ paint l cur text, e.2.2 = ((e.1 / l.cols * l.char : Nat) : Int) - cur) ∧
    ∀ y < l.height, ∃ e ∈ paint l cur text, e.2.2 ≤ y ∧ (y : Int) < e.2.2 + l.char := by
  have hd := Nat.div_add_mod cur l.char
  have hm := Nat.mod_lt cur hh
  unfold paint scrollAddr
  simp only [List.mem_map, List.mem_range]
  constructor
  · rintro e ⟨r, hr, rfl⟩
    simp only
    rw [← Nat.add_mul, Nat.mul_div_cancel _ hc, Nat.add_mul]
    rw [Nat.mul_comm l.char] at hd
    generalize cur / l.char = q at *
    have e1 : ((q * l.char + r * l.char : Nat) : Int) = (q * l.char : Nat) + (r : Int) * l.char := by push_cast; rfl
    rw [e1]
    omega
  · intro y hy
    have hd2 := Nat.div_add_mod (y + cur % l.char) l.char
    have hm2 := Nat.mod_lt (y + cur % l.char) hh
    refine ⟨_, ⟨(y + cur % l.char) / l.char, ?_, rfl⟩, ?_, ?_⟩
    · unfold Layout.rows
      rw [Nat.div_lt_iff_lt_mul hh, Nat.add_mul]
      have := Nat.div_add_mod l.height l.char
      have := Nat.mod_lt l.height hh
      rw [Nat.mul_comm l.char (l.height / l.char)] at *
      omega
    · simp only
      rw [Nat.mul_comm l.char] at hd2
      generalize (y + cur % l.char) / l.char = q at *
      have : ((q * l.char : Nat) : Int) = (q : Int) * l.char := by push_cast; rfl
      omega
    · simp only
      rw [Nat.mul_comm l.char] at hd2
      generalize (y + cur % l.char) / l.char = q at *
      have : ((q * l.char : Nat) : Int) = (q : Int) * l.char := by push_cast; rfl
      omega

/-- **C183**: no mark is empty. -/
theorem C183_mark (l : Layout) (hc : 0 < l.cols) (cur start stop : Nat) (h : start < stop) : ∀ e ∈ highlight l cur start stop, e.2.1 < e.2.2 := by
  intro e he
  unfold highlight at he
  obtain ⟨r, _, hr⟩ := List.mem_filterMap.mp he
  simp only at hr
  split at hr
  · cases hr
  · simp only [Option.some.injEq] at hr
    subst hr
    simp only
    omega

/-- **C183**: the bytes of a field are those that have a bit of it. -/
theorem C183_span (address size a : Nat) (h : 0 < size) : ((fieldSpan address size).1 ≤ a ∧ a < (fieldSpan address size).2) ↔ ∃ b, address ≤ b ∧ b < address + size ∧ b / 8 = a := by
  unfold fieldSpan
  simp only
  constructor
  · intro ⟨h1, h2⟩
    refine ⟨max address (8 * a), by omega, by omega, by omega⟩
  · rintro ⟨b, h1, h2, rfl⟩
    omega

/-! ### Example -/

example : InView ⟨100, 10, 16⟩ (scrollTo ⟨100, 10, 16⟩ 4000 0 1000 1040) 1000 1040 := C183_visible _ (by decide) _ _ _ _ (by decide) (by decide) (by decide)

example : scrollTo ⟨100, 10, 16⟩ 4000 0 1000 1040 = 550 := by decide +kernel

end Hachoir.Props
