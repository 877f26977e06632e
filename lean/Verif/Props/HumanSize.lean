import Verif.Core.FloatError

/-!
# C62: the text of a size, a bit size, a bit rate, a frequency

A small size is written exactly.  A larger one is divided by 1024 (or 1000) until it is below it,
and written with one decimal and the name of the unit.  Although the code divides floats, the text
is within half a tenth of the true quotient, up to one part in `2 ^ 50`, for every size; and file
sizes below `2 ^ 53` are rounded exactly.
-/

set_option linter.unusedVariables false

namespace Hachoir.Props
open Hachoir Hachoir.Human Spec

/-- One part in `2 ^ 50`. -/
def tiny : ℚ := 1 / 2 ^ 50

/-- `12.3 KB`: the text of a number of tenths. -/
def tenthsText (t : Nat) (unit : String) : List UInt8 :=
  decimal (t / 10) ++ asc "." ++ decimal (t % 10) ++ asc " " ++ asc unit

/-- `text` tells `size` in one of the units (`names[k]` is worth `D ^ (k + 1)`): in the first one
where the number is below `D`, with one decimal, or in the last one, as `last` tells. -/
def Tells (D : Nat) (names : List String) (last : ℚ → String → List UInt8 → Prop) (size : Nat)
    (text : List UInt8) : Prop :=
  ∃ k unit, names[k]? = some unit ∧
    (0 < k → (D : ℚ) * (1 - tiny) ≤ size / D ^ k) ∧
    (((size : ℚ) / D ^ (k + 1) < D * (1 + tiny) ∧
      ∃ t : Nat, text = tenthsText t unit ∧
        (t : ℚ) / 10 ≤ size / D ^ (k + 1) * (1 + tiny) + 1 / 20 ∧
        size / D ^ (k + 1) * (1 - tiny) - 1 / 20 ≤ (t : ℚ) / 10) ∨
     (k + 1 = names.length ∧ (D : ℚ) * (1 - tiny) ≤ size / D ^ (k + 1) ∧
      last (size / D ^ (k + 1)) unit text))

/-- The last unit of sizes: the number without its decimals. -/
def wholeNumber (q : ℚ) (unit : String) (text : List UInt8) : Prop :=
  ∃ n : Nat, text = decimal n ++ asc " " ++ asc unit ∧ (n : ℚ) ≤ q * (1 + tiny) ∧ q * (1 - tiny) < n + 1

/-- The last unit of frequencies: a float written in full. -/
def fullFloat (repr : Time.Dyadic → List UInt8) (q : ℚ) (unit : String) (text : List UInt8) : Prop :=
  ∃ x : Time.Dyadic, text = repr x ++ asc " " ++ asc unit ∧ x.val ≤ q * (1 + tiny) ∧ q * (1 - tiny) ≤ x.val

/-- After `k` divisions (and the conversion to a float). -/
def Near (D size k : Nat) (x : Time.Dyadic) : Prop :=
  (size : ℚ) / D ^ k * (1 - 1 / 2 ^ 53) ^ (k + 1) ≤ x.val ∧
  x.val ≤ (size : ℚ) / D ^ k * (1 + 1 / 2 ^ 53) ^ (k + 1)

theorem ltFloat_val (x : Time.Dyadic) (n : Nat) : ltFloat x n = true ↔ x.val < n := by
  unfold ltFloat Time.Dyadic.val
  rw [decide_eq_true_eq, div_lt_iff₀ (by positivity)]
  exact_mod_cast Iff.rfl

theorem near_div (D size k : Nat) (x : Time.Dyadic) (hD : 0 < D) (hD' : D ≤ 2 ^ 64) (hx : 1 ≤ x.val)
    (h : Near D size k x) : Near D size (k + 1) (divFloat x D) := by
  have hx0 : (0 : ℚ) < x.num := by
    by_contra hn
    have : (x.num : ℚ) = 0 := le_antisymm (not_lt.mp hn) (by positivity)
    unfold Time.Dyadic.val at hx
    rw [this, zero_div] at hx
    norm_num at hx
  have hn : 0 < x.num := by exact_mod_cast hx0
  have hc : D * 2 ^ x.exp ≤ x.num * 2 ^ 64 := by
    have h1 : (2 : ℚ) ^ x.exp ≤ x.num := by
      have := (le_div_iff₀ (by positivity : (0 : ℚ) < 2 ^ x.exp)).mp hx
      rwa [one_mul] at this
    have h1' : 2 ^ x.exp ≤ x.num := by exact_mod_cast h1
    calc D * 2 ^ x.exp ≤ 2 ^ 64 * x.num := Nat.mul_le_mul hD' h1'
      _ = _ := Nat.mul_comm _ _
  obtain ⟨c1, c2⟩ := Time.trueDiv_close x.num (D * 2 ^ x.exp) hn (by positivity) hc
  have hD0 : (0 : ℚ) < D := by exact_mod_cast hD
  have e : (x.num : ℚ) / ((D * 2 ^ x.exp : Nat) : ℚ) = x.val / D := by
    unfold Time.Dyadic.val
    push_cast
    rw [div_div, mul_comm]
  rw [e] at c1 c2
  have e2 : ∀ a : ℚ, (size : ℚ) / D ^ (k + 1) * a ^ (k + 1 + 1) = (size : ℚ) / D ^ k * a ^ (k + 1) / D * a := by
    intro a
    rw [pow_succ a (k + 1), pow_succ (D : ℚ) k]
    field_simp
  unfold Near divFloat
  rw [e2, e2]
  constructor
  · refine le_trans ?_ c1
    have : (0 : ℚ) ≤ 1 - 1 / 2 ^ 53 := by norm_num
    have := h.1
    gcongr
  · refine le_trans c2 ?_
    have := h.2
    gcongr

theorem unitLoop_near (D size : Nat) (last : Time.Dyadic → String → List UInt8) (hD : 0 < D) (hD' : D ≤ 2 ^ 64) :
    ∀ (units : List String) (prev : String) (k : Nat) (x : Time.Dyadic), units ≠ [] → Near D size k x → 1 ≤ x.val →
    ∃ j unit y, units[j]? = some unit ∧ Near D size (k + j + 1) y ∧
      (0 < j → ∃ z, Near D size (k + j) z ∧ (D : ℚ) ≤ z.val) ∧
      ((y.val < D ∧ unitLoop D last units prev x = fixed1 y ++ asc (" " ++ unit)) ∨
       (j + 1 = units.length ∧ (D : ℚ) ≤ y.val ∧ unitLoop D last units prev x = last y unit))
  | [], _, _, _, h, _, _ => absurd rfl h
  | unit :: units, prev, k, x, _, hx, h1 => by
    have hy := near_div D size k x hD hD' h1 hx
    by_cases hlt : ltFloat (divFloat x D) D = true
    · refine ⟨0, unit, divFloat x D, rfl, hy, fun h => absurd h (by omega), Or.inl ⟨(ltFloat_val _ _).mp hlt, ?_⟩⟩
      rw [unitLoop]
      rw [if_pos hlt]
    · have hge : (D : ℚ) ≤ (divFloat x D).val := not_lt.mp fun h => hlt ((ltFloat_val _ _).mpr h)
      have hstep : unitLoop D last (unit :: units) prev x = unitLoop D last units unit (divFloat x D) := by
        rw [unitLoop]
        rw [if_neg hlt]
      rw [hstep]
      cases hu : units with
      | nil => exact ⟨0, unit, divFloat x D, rfl, hy, fun h => absurd h (by omega), Or.inr ⟨rfl, hge, rfl⟩⟩
      | cons u us =>
        have h1' : (1 : ℚ) ≤ (divFloat x D).val := by
          refine le_trans ?_ hge
          exact_mod_cast hD
        obtain ⟨j, w, y, a1, a2, a3, a4⟩ := unitLoop_near D size last hD hD' (u :: us) unit (k + 1) _ (by simp) hy h1'
        refine ⟨j + 1, w, y, a1, ?_, ?_, ?_⟩
        · have : k + (j + 1) + 1 = k + 1 + j + 1 := by omega
          rw [this]; exact a2
        · intro _
          cases j with
          | zero => exact ⟨_, hy, hge⟩
          | succ j =>
            obtain ⟨z, z1, z2⟩ := a3 (by omega)
            refine ⟨z, ?_, z2⟩
            have : k + (j + 1 + 1) = k + 1 + (j + 1) := by omega
            rw [this]; exact z1
        · rcases a4 with a4 | ⟨b1, b2⟩
          · exact Or.inl a4
          · refine Or.inr ⟨?_, b2⟩
            rw [List.length_cons, ← b1]

theorem near_sharp (D size k : Nat) (x : Time.Dyadic) (hk : k ≤ 4) (h : Near D size k x) :
    (size : ℚ) / D ^ k * (1 - 3 / 4 * tiny) ≤ x.val := by
  have hq : (0 : ℚ) ≤ (size : ℚ) / D ^ k := by positivity
  have a : (1 : ℚ) - 3 / 4 * tiny ≤ (1 - 1 / 2 ^ 53) ^ 5 := by unfold tiny; norm_num
  have a' : (1 - 1 / 2 ^ 53 : ℚ) ^ 5 ≤ (1 - 1 / 2 ^ 53) ^ (k + 1) :=
    pow_le_pow_of_le_one (by norm_num) (by norm_num) (by omega)
  exact le_trans (mul_le_mul_of_nonneg_left (le_trans a a') hq) h.1

/-- Five roundings are within one part in `2 ^ 50`. -/
theorem near_tiny (D size k : Nat) (x : Time.Dyadic) (hk : k ≤ 4) (h : Near D size k x) :
    (size : ℚ) / D ^ k * (1 - tiny) ≤ x.val ∧ x.val ≤ (size : ℚ) / D ^ k * (1 + tiny) := by
  have hq : (0 : ℚ) ≤ (size : ℚ) / D ^ k := by positivity
  have a : (1 : ℚ) - tiny ≤ (1 - 1 / 2 ^ 53) ^ 5 := by unfold tiny; norm_num
  have b : (1 + 1 / 2 ^ 53 : ℚ) ^ 5 ≤ 1 + tiny := by unfold tiny; norm_num
  have a' : (1 - 1 / 2 ^ 53 : ℚ) ^ 5 ≤ (1 - 1 / 2 ^ 53) ^ (k + 1) :=
    pow_le_pow_of_le_one (by norm_num) (by norm_num) (by omega)
  have b' : (1 + 1 / 2 ^ 53 : ℚ) ^ (k + 1) ≤ (1 + 1 / 2 ^ 53) ^ 5 :=
    pow_le_pow_right₀ (by norm_num) (by omega)
  constructor
  · refine le_trans (mul_le_mul_of_nonneg_left (le_trans a a') hq) h.1
  · refine le_trans h.2 (mul_le_mul_of_nonneg_left (le_trans b' b) hq)

theorem asc_append (a b : String) : asc (a ++ b) = asc a ++ asc b := by
  unfold asc
  rw [String.toList_append, List.map_append]

theorem fixed1_text (y : Time.Dyadic) (unit : String) : ∃ t : Nat,
    fixed1 y ++ asc (" " ++ unit) = tenthsText t unit ∧ (t : ℚ) / 10 ≤ y.val + 1 / 20 ∧ y.val - 1 / 20 ≤ (t : ℚ) / 10 := by
  refine ⟨Time.roundHalfEven (10 * y.num) (2 ^ y.exp), ?_, ?_⟩
  · unfold fixed1 tenthsText
    simp only [asc_append, List.append_assoc]
    rfl
  · obtain ⟨h1, h2⟩ := Time.roundHalfEven_rat (10 * y.num) (2 ^ y.exp) (by positivity)
    have e : ((10 * y.num : Nat) : ℚ) / ((2 ^ y.exp : Nat) : ℚ) = 10 * y.val := by
      unfold Time.Dyadic.val
      push_cast
      ring
    rw [e] at h1 h2
    constructor <;> linarith

theorem loop_tells (D size : Nat) (hD : 0 < D) (hD' : D ≤ 2 ^ 64) (hs : 2 ≤ size)
    (names : List String) (hn : names ≠ []) (hl : names.length ≤ 4)
    (last : Time.Dyadic → String → List UInt8) (spec : ℚ → String → List UInt8 → Prop)
    (hlast : ∀ x q unit, x.val ≤ q * (1 + tiny) → q * (1 - tiny) ≤ x.val → spec q unit (last x unit)) :
    Tells D names spec size (unitLoop D last names "" (toFloat size)) := by
  have hD0 : (0 : ℚ) < D := by exact_mod_cast hD
  obtain ⟨c1, c2⟩ := Time.trueDiv_close size 1 (by omega) (by decide) (by omega)
  have h0 : Near D size 0 (toFloat size) := by
    unfold Near toFloat
    simpa using And.intro c1 c2
  have h1 : 1 ≤ (toFloat size).val := by
    refine le_trans ?_ c1
    have : (2 : ℚ) ≤ size := by exact_mod_cast hs
    rw [Nat.cast_one, div_one]
    nlinarith
  obtain ⟨j, unit, y, a1, a2, a3, a4⟩ := unitLoop_near D size last hD hD' names "" 0 _ hn h0 h1
  have hj : j < names.length := by
    obtain ⟨hj, _⟩ := List.getElem?_eq_some_iff.mp a1
    exact hj
  have h01 : 0 + j + 1 = j + 1 := by omega
  rw [h01] at a2
  obtain ⟨t1, t2⟩ := near_tiny D size (j + 1) y (by omega) a2
  have below : ∀ d q : ℚ, d ≤ q * (1 + tiny) → 0 ≤ q → d * (1 - tiny) ≤ q := by
    intro d q hdq hq
    have ht : (0 : ℚ) ≤ 1 - tiny := by unfold tiny; norm_num
    calc d * (1 - tiny) ≤ q * (1 + tiny) * (1 - tiny) := mul_le_mul_of_nonneg_right hdq ht
      _ = q * (1 - tiny ^ 2) := by ring
      _ ≤ q * 1 := by
        apply mul_le_mul_of_nonneg_left _ hq
        have : (0 : ℚ) ≤ tiny ^ 2 := by positivity
        linarith
      _ = _ := mul_one _
  refine ⟨j, unit, a1, ?_, ?_⟩
  · intro hj0
    obtain ⟨z, z1, z2⟩ := a3 hj0
    rw [Nat.zero_add] at z1
    obtain ⟨_, z3⟩ := near_tiny D size j z (by omega) z1
    exact below _ _ (le_trans z2 z3) (by positivity)
  · rcases a4 with ⟨b1, b2⟩ | ⟨b1, b2, b3⟩
    · obtain ⟨t, e1, e2, e3⟩ := fixed1_text y unit
      refine Or.inl ⟨?_, t, by rw [b2, e1], by linarith, by linarith⟩
      have h : (size : ℚ) / D ^ (j + 1) * (1 - 3 / 4 * tiny) < D :=
        lt_of_le_of_lt (near_sharp D size (j + 1) y (by omega) a2) b1
      obtain ⟨q, hq⟩ : ∃ q, (size : ℚ) / D ^ (j + 1) = q := ⟨_, rfl⟩
      rw [hq] at h ⊢
      have hq0 : 0 ≤ q := by rw [← hq]; positivity
      have ht : (1 : ℚ) ≤ (1 - 3 / 4 * tiny) * (1 + tiny) := by unfold tiny; norm_num
      calc q ≤ q * ((1 - 3 / 4 * tiny) * (1 + tiny)) := le_mul_of_one_le_right hq0 ht
        _ = q * (1 - 3 / 4 * tiny) * (1 + tiny) := by ring
        _ < D * (1 + tiny) := by
          apply mul_lt_mul_of_pos_right h
          unfold tiny; norm_num
    · exact Or.inr ⟨b1, below _ _ (le_trans b2 t2) (by positivity), by rw [b3]; exact hlast y _ unit t2 t1⟩

/-- The name of the unit and the division: see `Tells`. -/
theorem lastInt_whole (x : Time.Dyadic) (q : ℚ) (unit : String) (h1 : x.val ≤ q * (1 + tiny))
    (h2 : q * (1 - tiny) ≤ x.val) : wholeNumber q unit (lastInt x unit) := by
  refine ⟨x.num / 2 ^ x.exp, ?_, le_trans ?_ h1, lt_of_le_of_lt h2 ?_⟩
  · unfold lastInt
    rw [asc_append, List.append_assoc]
  · unfold Time.Dyadic.val
    rw [le_div_iff₀ (by positivity)]
    exact_mod_cast Nat.div_mul_le_self _ _
  · unfold Time.Dyadic.val
    rw [div_lt_iff₀ (by positivity)]
    have := Nat.lt_div_mul_add (a := x.num) (b := 2 ^ x.exp) (by positivity)
    have h : x.num < (x.num / 2 ^ x.exp + 1) * 2 ^ x.exp := by rw [Nat.add_mul, Nat.one_mul]; exact this
    exact_mod_cast h

/-- **C62.** File sizes: exact below 10000 bytes. -/
theorem C62_filesize_small (size : Nat) (h : size < 10000) :
    humanFilesize size = decimal size ++ asc " bytes" := by
  unfold humanFilesize
  rw [if_pos (by omega)]
  rfl

/-- **C62.** File sizes from 10000 bytes on. -/
theorem C62_filesize (size : Nat) (h : 10000 ≤ size) :
    Tells 1024 ["KB", "MB", "GB", "TB"] wholeNumber size (humanFilesize size) := by
  unfold humanFilesize
  rw [if_neg (by omega)]
  exact loop_tells 1024 size (by decide) (by decide) (by omega) _ (by simp) (by decide) _ _ lastInt_whole

/-- **C62.** Bit sizes. -/
theorem C62_bitsize (size : Nat) :
    (size < 1000 → humanBitSize size = decimal size ++ asc " bits") ∧
    (1000 ≤ size → Tells 1000 ["Kbit", "Mbit", "Gbit", "Tbit"] wholeNumber size (humanBitSize size)) := by
  refine ⟨fun h => ?_, fun h => ?_⟩ <;> unfold humanBitSize
  · rw [if_pos (by omega)]; rfl
  · rw [if_neg (by omega)]
    exact loop_tells 1000 size (by decide) (by decide) (by omega) _ (by simp) (by decide) _ _ lastInt_whole

/-- **C62.** Bit rates. -/
theorem C62_bitrate (size : Nat) :
    ∃ text, humanBitRate size = text ++ asc "/sec" ∧
      (size < 1000 → text = decimal size ++ asc " bits") ∧
      (1000 ≤ size → Tells 1000 ["Kbit", "Mbit", "Gbit", "Tbit"] wholeNumber size text) :=
  ⟨_, rfl, C62_bitsize size⟩

/-- **C62.** Frequencies. -/
theorem C62_frequency (repr : Time.Dyadic → List UInt8) (hertz : Nat) :
    (hertz < 1000 → humanFrequency repr hertz = decimal hertz ++ asc " Hz") ∧
    (1000 ≤ hertz →
      Tells 1000 ["kHz", "MHz", "GHz", "THz"] (fullFloat repr) hertz (humanFrequency repr hertz)) := by
  refine ⟨fun h => ?_, fun h => ?_⟩ <;> unfold humanFrequency
  · rw [if_pos (by omega)]; rfl
  · rw [if_neg (by omega)]
    refine loop_tells 1000 hertz (by decide) (by decide) (by omega) _ (by simp) (by decide) _ _ ?_
    intro x q unit h1 h2
    exact ⟨x, by simp only [asc_append, List.append_assoc], h1, h2⟩

/-! ## File sizes below `2 ^ 53` -/

theorem roundHalfEven_scale (n d c : Nat) (hc : 0 < c) (hd : 0 < d) :
    Time.roundHalfEven (n * c) (d * c) = Time.roundHalfEven n d := by
  unfold Time.roundHalfEven
  have h1 : n * c / (d * c) = n / d := Nat.mul_div_mul_right _ _ hc
  have h2 : n * c % (d * c) = n % d * c := Nat.mul_mod_mul_right _ _ _
  have h3 : 2 * (n % d * c) < d * c ↔ 2 * (n % d) < d := by
    rw [← Nat.mul_assoc]; exact Nat.mul_lt_mul_right hc
  have h4 : d * c < 2 * (n % d * c) ↔ d < 2 * (n % d) := by
    rw [← Nat.mul_assoc]; exact Nat.mul_lt_mul_right hc
  simp only [h1, h2, gt_iff_lt, h3, h4]

theorem roundHalfEven_ratio (a b c d : Nat) (hb : 0 < b) (hd : 0 < d) (h : a * d = c * b) :
    Time.roundHalfEven a b = Time.roundHalfEven c d := by
  rw [← roundHalfEven_scale a b d hd hb, ← roundHalfEven_scale c d b hb hd, h, Nat.mul_comm b d]

/-- A float equal to `size / 1024 ^ k`. -/
def Exactly (size k : Nat) (x : Time.Dyadic) : Prop :=
  x.num * 1024 ^ k = size * 2 ^ x.exp ∧ x.num < 2 ^ 53

theorem exactly_val (size k : Nat) (x : Time.Dyadic) (h : x.num * 1024 ^ k = size * 2 ^ x.exp) :
    x.val = size / 1024 ^ k := by
  unfold Time.Dyadic.val
  rw [div_eq_div_iff (by positivity) (by positivity)]
  exact_mod_cast h

theorem exactly_div (size k : Nat) (x : Time.Dyadic) (hx : 0 < x.num) (h1 : 2 ^ x.exp ≤ x.num)
    (h : Exactly size k x) : Exactly size (k + 1) (divFloat x 1024) := by
  have hc : 2 ^ (10 + x.exp) ≤ x.num * 2 ^ 64 := by
    rw [Nat.pow_add]
    calc 2 ^ 10 * 2 ^ x.exp ≤ 2 ^ 64 * x.num := Nat.mul_le_mul (by decide) h1
      _ = _ := Nat.mul_comm _ _
  obtain ⟨e1, e2⟩ := Time.trueDiv_exact x.num (10 + x.exp) hx h.2 hc
  have hd : divFloat x 1024 = Time.trueDiv x.num (2 ^ (10 + x.exp)) := by
    unfold divFloat
    rw [Nat.pow_add]
  rw [hd]
  refine ⟨?_, e2⟩
  have hv := exactly_val size k x h.1
  have : (Time.trueDiv x.num (2 ^ (10 + x.exp))).val = size / 1024 ^ (k + 1) := by
    rw [e1, pow_succ, ← div_div, ← hv, pow_add]
    unfold Time.Dyadic.val
    rw [div_div, mul_comm]
    norm_num
  unfold Time.Dyadic.val at this
  rw [div_eq_div_iff (by positivity) (by positivity)] at this
  exact_mod_cast this

theorem exactly_lt (size k : Nat) (x : Time.Dyadic) (h : Exactly size k x) :
    ltFloat x 1024 = decide (size < 1024 ^ (k + 1)) := by
  rw [Bool.eq_iff_iff, ltFloat_val, decide_eq_true_eq, exactly_val size k x h.1,
    div_lt_iff₀ (by positivity), pow_succ, mul_comm (1024 ^ k)]
  exact_mod_cast Iff.rfl

theorem exactly_fixed (size k : Nat) (x : Time.Dyadic) (h : Exactly size k x) :
    Time.roundHalfEven (10 * x.num) (2 ^ x.exp) = Time.roundHalfEven (10 * size) (1024 ^ k) := by
  apply roundHalfEven_ratio _ _ _ _ (by positivity) (by positivity)
  rw [Nat.mul_assoc, h.1, Nat.mul_assoc]

/-- The number of tenths nearest to `10 * n / d`, the even one when two are equally near. -/
def NearestEven (n d t : Nat) : Prop :=
  2 * (d * t) ≤ 2 * n + d ∧ 2 * n ≤ 2 * (d * t) + d ∧
  (2 * (d * t) = 2 * n + d ∨ 2 * n = 2 * (d * t) + d → t % 2 = 0)

theorem roundHalfEven_nearest (n d : Nat) (hd : 0 < d) : NearestEven n d (Time.roundHalfEven n d) := by
  obtain ⟨h1, h2⟩ := Time.roundHalfEven_bound n d hd
  refine ⟨h1, h2, ?_⟩
  have hdm := Nat.div_add_mod n d
  have hlt := Nat.mod_lt n hd
  unfold Time.roundHalfEven
  simp only
  obtain ⟨x, hx⟩ : ∃ x, d * (n / d) = x := ⟨_, rfl⟩
  repeat' split
  all_goals (try rw [Nat.mul_add]); rw [hx] at hdm ⊢; omega

/-- **C62.** Below `2 ^ 53` bytes (and 1024 TB), a file size is written in the greatest unit it
reaches (kilobytes from 10000 bytes on), with the number of tenths that is nearest. -/
theorem C62_filesize_exact (size : Nat) (h : 10000 ≤ size) (h' : size < 1024 ^ 5) :
    ∃ k unit t, ["KB", "MB", "GB", "TB"][k]? = some unit ∧ (0 < k → 1024 ^ (k + 1) ≤ size) ∧
      size < 1024 ^ (k + 2) ∧ NearestEven (10 * size) (1024 ^ (k + 1)) t ∧
      humanFilesize size = tenthsText t unit := by
  have h53 : size < 2 ^ 53 := lt_of_lt_of_le h' (by decide)
  obtain ⟨e1, e2⟩ := Time.trueDiv_exact size 0 (by omega) h53 (by omega)
  have x0 : Exactly size 0 (toFloat size) := by
    refine ⟨?_, e2⟩
    have : (toFloat size).val = size := by
      have : (toFloat size).val = (size : ℚ) / 2 ^ 0 := e1
      rw [this, pow_zero, div_one]
    unfold Time.Dyadic.val at this
    rw [div_eq_iff (by positivity)] at this
    rw [pow_zero, Nat.mul_one]
    exact_mod_cast this
  have step : ∀ k x, Exactly size k x → 1024 ^ k ≤ size → Exactly size (k + 1) (divFloat x 1024) := by
    intro k x hx hk
    have hk0 : 0 < 1024 ^ k := by positivity
    have h1 : 2 ^ x.exp ≤ x.num := by
      have : 2 ^ x.exp * 1024 ^ k ≤ x.num * 1024 ^ k := by
        rw [hx.1, Nat.mul_comm]
        exact Nat.mul_le_mul_right _ hk
      exact Nat.le_of_mul_le_mul_right this hk0
    exact exactly_div size k x (lt_of_lt_of_le (by positivity) h1) h1 hx
  have text : ∀ k x unit, Exactly size k x → ∃ t, NearestEven (10 * size) (1024 ^ k) t ∧
      fixed1 x ++ asc (" " ++ unit) = tenthsText t unit := by
    intro k x unit hx
    refine ⟨_, roundHalfEven_nearest (10 * size) (1024 ^ k) (by positivity), ?_⟩
    rw [← exactly_fixed size k x hx]
    unfold fixed1 tenthsText
    simp only [asc_append, List.append_assoc]
    rfl
  unfold humanFilesize
  rw [if_neg (by omega), Int.toNat_natCast]
  have x1 := step 0 _ x0 (by omega)
  rw [unitLoop, exactly_lt size 1 _ x1]
  by_cases c1 : size < 1024 ^ 2
  · rw [if_pos (by simpa using c1)]
    obtain ⟨t, t1, t2⟩ := text 1 _ "KB" x1
    exact ⟨0, "KB", t, rfl, fun h => absurd h (by omega), c1, t1, t2⟩
  rw [if_neg (by simpa using c1)]
  have x2 := step 1 _ x1 (by omega)
  rw [unitLoop, exactly_lt size 2 _ x2]
  by_cases c2 : size < 1024 ^ 3
  · rw [if_pos (by simpa using c2)]
    obtain ⟨t, t1, t2⟩ := text 2 _ "MB" x2
    exact ⟨1, "MB", t, rfl, fun _ => by omega, c2, t1, t2⟩
  rw [if_neg (by simpa using c2)]
  have x3 := step 2 _ x2 (by omega)
  rw [unitLoop, exactly_lt size 3 _ x3]
  by_cases c3 : size < 1024 ^ 4
  · rw [if_pos (by simpa using c3)]
    obtain ⟨t, t1, t2⟩ := text 3 _ "GB" x3
    exact ⟨2, "GB", t, rfl, fun _ => by omega, c3, t1, t2⟩
  rw [if_neg (by simpa using c3)]
  have x4 := step 3 _ x3 (by omega)
  rw [unitLoop, exactly_lt size 4 _ x4]
  rw [if_pos (by simpa using h')]
  obtain ⟨t, t1, t2⟩ := text 4 _ "TB" x4
  exact ⟨3, "TB", t, rfl, fun _ => by omega, h', t1, t2⟩

example : humanFilesize 256960 = asc "250.9 KB" := by decide +kernel
example : humanFilesize 9999 = asc "9999 bytes" := by decide +kernel
example : humanBitRate 256960 = asc "257.0 Kbit/sec" := by decide +kernel

/-- The number written can be 1024 of a unit: it is rounded after the unit was chosen. -/
theorem C62_rounded_up : humanFilesize 1048575 = asc "1024.0 KB" := by decide +kernel

end Hachoir.Props
