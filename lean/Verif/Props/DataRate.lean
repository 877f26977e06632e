import Verif.Subfile.DataRate
import Mathlib.Tactic.Linarith
import Mathlib.Tactic.Ring
import Mathlib.Tactic.FieldSimp

/-!
# C174: the speed of a search
-/

namespace Hachoir.Props
open Hachoir.Subfile

/-! ### Specification -/

/-- The calls that count: at least a second after the last that did. -/
def counted : Rat → List Call → List Call
  | _, [] => []
  | t, c :: cs => if t + 1 ≤ c.now then c :: counted c.now2 cs else counted t cs

/-- The way made, by the time it took, from call to call. -/
def speeds : Rat → Rat → List Call → List Rat
  | _, _, [] => []
  | o, t, c :: cs => (c.offset - o) / (c.now - t) :: speeds c.offset c.now2 cs

/-- The last `n` elements. -/
def lastN {α : Type} (n : Nat) (l : List α) : List α := (l.reverse.take n).reverse

def meanOf (l : List Rat) : Rat := l.sum / l.length

/-! ### Lemmas -/

theorem lastN_eq {α : Type} (n : Nat) (l : List α) : lastN n l = l.drop (l.length - n) := by
  rw [lastN, List.take_reverse, List.reverse_reverse]

theorem slice_lastN {α : Type} (n : Nat) (hn : n ≠ 0) (l : List α) : lastSlice l n = lastN n l := by
  rw [lastSlice, if_neg hn, lastN_eq]

theorem lastN_lastN {α : Type} (n : Nat) (l m : List α) : lastN n (lastN n l ++ m) = lastN n (l ++ m) := by
  unfold lastN
  congr 1
  rw [List.reverse_append, List.reverse_append, List.reverse_reverse, List.take_append, List.take_append, List.take_take]
  congr 2
  omega

theorem lastN_length {α : Type} (n : Nat) (l : List α) : (lastN n l).length = min n l.length := by
  simp [lastN]

/-- A call that does not count changes nothing. -/
theorem update_early (d : DataRate) (c : Call) (h : ¬ d.lastTime + 1 ≤ c.now) : d.update c.now c.now2 c.offset = d := by
  rw [DataRate.update]
  simp only
  rw [if_pos (by linarith)]

theorem update_counted (d : DataRate) (c : Call) (h : d.lastTime + 1 ≤ c.now) :
    d.update c.now c.now2 c.offset = ⟨c.offset, c.now2, lastSlice (d.rates ++ [(c.offset - d.lastOffset) / (c.now - d.lastTime)]) d.size,
      averageOf d.minSize (lastSlice (d.rates ++ [(c.offset - d.lastOffset) / (c.now - d.lastTime)]) d.size) d.average, d.size, d.minSize⟩ := by
  rw [DataRate.update]
  simp only
  rw [if_neg (by linarith)]

/-- The whole state, from any state whose rates are the last of `old`. -/
theorem run_state (size minSize : Nat) (hs : size ≠ 0) (hm : minSize ≤ size) : ∀ (calls : List Call) (d : DataRate) (old : List Rat), d.size = size → d.minSize = minSize → d.rates = lastN size old →
    (old ≠ [] → d.average = if minSize ≤ old.length then some (meanOf (lastN size old)) else none) → (old = [] → d.average = none) →
    (d.run calls).rates = lastN size (old ++ speeds d.lastOffset d.lastTime (counted d.lastTime calls)) ∧
    (old ++ speeds d.lastOffset d.lastTime (counted d.lastTime calls) ≠ [] → (d.run calls).average =
      if minSize ≤ (old ++ speeds d.lastOffset d.lastTime (counted d.lastTime calls)).length then some (meanOf (lastN size (old ++ speeds d.lastOffset d.lastTime (counted d.lastTime calls)))) else none) ∧
    (old ++ speeds d.lastOffset d.lastTime (counted d.lastTime calls) = [] → (d.run calls).average = none)
  | [], d, old, h1, h2, h3, h4, h5 => by
    simp only [counted, speeds, List.append_nil]
    exact ⟨h3, h4, h5⟩
  | c :: cs, d, old, h1, h2, h3, h4, h5 => by
    by_cases hc : d.lastTime + 1 ≤ c.now
    · have e : d.run (c :: cs) = (d.update c.now c.now2 c.offset).run cs := rfl
      rw [e, update_counted d c hc, counted, if_pos hc, speeds, h1, h2, h3, slice_lastN size hs, lastN_lastN]
      have ih := run_state size minSize hs hm cs ⟨c.offset, c.now2, lastN size (old ++ [(c.offset - d.lastOffset) / (c.now - d.lastTime)]),
        averageOf minSize (lastN size (old ++ [(c.offset - d.lastOffset) / (c.now - d.lastTime)])) d.average, size, minSize⟩ (old ++ [(c.offset - d.lastOffset) / (c.now - d.lastTime)]) rfl rfl rfl
        (by
          intro _
          show averageOf _ _ _ = _
          rw [averageOf, lastN_length]
          by_cases hk : minSize ≤ (old ++ [(c.offset - d.lastOffset) / (c.now - d.lastTime)]).length
          · rw [if_pos hk, if_pos (by omega), meanOf, lastN_length]
          · rw [if_neg hk, if_neg (by omega)]
            by_cases ho : old = []
            · exact h5 ho
            · rw [h4 ho, if_neg]
              rw [List.length_append] at hk
              omega)
        (by intro h; simp at h)
      simpa only [List.append_assoc, List.singleton_append] using ih
    · have e : d.run (c :: cs) = (d.update c.now c.now2 c.offset).run cs := rfl
      rw [e, update_early d c hc, counted, if_neg hc]
      exact run_state size minSize hs hm cs d old h1 h2 h3 h4 h5

/-! ### Properties -/

/-- **C174**: after any calls the rates that are kept are the last `size` of the speeds between the calls that count. -/
theorem C174_rates (offset now : Rat) (size minSize : Nat) (hs : size ≠ 0) (hm : minSize ≤ size) (calls : List Call) :
    ((DataRate.new offset size minSize now).run calls).rates = lastN size (speeds offset now (counted now calls)) :=
  (run_state size minSize hs hm calls (DataRate.new offset size minSize now) [] rfl rfl (by simp [lastN, DataRate.new]) (by simp) (fun _ => rfl)).1

/-- **C174**: the average is the mean of these rates, and none as long as there are less than `minSize`. -/
theorem C174_average (offset now : Rat) (size minSize : Nat) (hs : size ≠ 0) (hm : minSize ≤ size) (h0 : minSize ≠ 0) (calls : List Call) :
    ((DataRate.new offset size minSize now).run calls).average =
      if minSize ≤ (speeds offset now (counted now calls)).length then some (meanOf (lastN size (speeds offset now (counted now calls)))) else none := by
  obtain ⟨_, h1, h2⟩ := run_state size minSize hs hm calls (DataRate.new offset size minSize now) [] rfl rfl (by simp [lastN, DataRate.new]) (by simp) (fun _ => rfl)
  simp only [List.nil_append] at h1 h2
  by_cases h : speeds offset now (counted now calls) = []
  · rw [h2 h, h, if_neg (by simpa using h0)]
  · exact h1 h

/-- **C174**: no more than `size` rates are ever kept. -/
theorem C174_bounded (offset now : Rat) (size minSize : Nat) (hs : size ≠ 0) (hm : minSize ≤ size) (calls : List Call) : ((DataRate.new offset size minSize now).run calls).rates.length ≤ size := by
  rw [C174_rates offset now size minSize hs hm calls, lastN_length]
  omega

/-- **C174**: the average is between bounds of the speeds. -/
theorem C174_between (offset now : Rat) (size minSize : Nat) (hs : size ≠ 0) (hm : minSize ≤ size) (h0 : minSize ≠ 0) (calls : List Call) (lo hi a : Rat)
    (hb : ∀ r ∈ speeds offset now (counted now calls), lo ≤ r ∧ r ≤ hi) (ha : ((DataRate.new offset size minSize now).run calls).average = some a) : lo ≤ a ∧ a ≤ hi := by
  rw [C174_average offset now size minSize hs hm h0 calls] at ha
  split at ha
  · rename_i hk
    cases ha
    have hl : 0 < (lastN size (speeds offset now (counted now calls))).length := by
      rw [lastN_length]
      omega
    have hb' : ∀ r ∈ lastN size (speeds offset now (counted now calls)), lo ≤ r ∧ r ≤ hi := by
      intro r hr
      rw [lastN_eq] at hr
      exact hb r (List.mem_of_mem_drop hr)
    generalize lastN size (speeds offset now (counted now calls)) = l at hl hb'
    have hsum : lo * l.length ≤ l.sum ∧ l.sum ≤ hi * l.length := by
      clear hl
      induction l with
      | nil => simp
      | cons x l ih =>
        obtain ⟨i1, i2⟩ := ih fun r hr => hb' r (List.mem_cons_of_mem _ hr)
        obtain ⟨x1, x2⟩ := hb' x (List.mem_cons_self ..)
        rw [List.sum_cons, List.length_cons]
        push_cast
        constructor <;> linarith
    have hl' : (0 : Rat) < l.length := by exact_mod_cast hl
    exact ⟨(le_div_iff₀ hl').2 hsum.1, (div_le_iff₀ hl').2 hsum.2⟩
  · cases ha

/-- The time between the calls that count. -/
def spans : Rat → List Call → List Rat
  | _, [] => []
  | t, c :: cs => (c.now - t) :: spans c.now2 cs

/-- **C174**: the rates times their times are the whole way, up to the last call that counts. -/
theorem C174_way (offset now : Rat) (calls : List Call) :
    ((speeds offset now (counted now calls)).zipWith (· * ·) (spans now (counted now calls))).sum = ((counted now calls).getLast?.map (·.offset)).getD offset - offset := by
  have key : ∀ (cs : List Call) (o t : Rat), (∀ calls, counted t calls = cs → ((speeds o t cs).zipWith (· * ·) (spans t cs)).sum = (cs.getLast?.map (·.offset)).getD o - o) := by
    intro cs
    induction cs with
    | nil => intro o t _ _; simp [speeds, spans]
    | cons c cs ih =>
      intro o t calls hc
      have h : t + 1 ≤ c.now ∧ ∃ l, counted c.now2 l = cs := by
        clear ih
        induction calls with
        | nil => simp [counted] at hc
        | cons x xs ihx =>
          rw [counted] at hc
          split at hc
          · rename_i h
            cases hc
            exact ⟨h, _, rfl⟩
          · exact ihx hc
      obtain ⟨h1, l, h2⟩ := h
      have i := ih c.offset c.now2 l h2
      have hne : c.now - t ≠ 0 := by linarith
      rw [speeds, spans, List.zipWith_cons_cons, List.sum_cons, i, div_mul_cancel₀ _ hne]
      cases cs with
      | nil => simp
      | cons y ys =>
        rw [List.getLast?_cons_cons]
        simp [List.getLast?_cons]
  exact key _ offset now calls rfl

/-- **C174** (disagreement): if more rates are asked for than are kept there is never an average. -/
theorem C174_never (offset now : Rat) (size minSize : Nat) (hs : size ≠ 0) (hm : size < minSize) (calls : List Call) : ((DataRate.new offset size minSize now).run calls).average = none := by
  have key : ∀ (cs : List Call) (d : DataRate), d.size = size → d.minSize = minSize → d.average = none → (d.run cs).average = none := by
    intro cs
    induction cs with
    | nil => intro d _ _ h; exact h
    | cons c cs ih =>
      intro d h1 h2 h3
      have e : d.run (c :: cs) = (d.update c.now c.now2 c.offset).run cs := rfl
      rw [e]
      by_cases hc : d.lastTime + 1 ≤ c.now
      · rw [update_counted d c hc]
        refine ih _ h1 h2 ?_
        show averageOf _ _ _ = none
        rw [averageOf, h1, h2, slice_lastN size hs, lastN_length, if_neg (by omega), h3]
      · rw [update_early d c hc]
        exact ih d h1 h2 h3
  exact key calls _ rfl rfl rfl

/-- **C174** (disagreement): with the size 0 no rate is ever dropped. -/
theorem C174_zero (offset now : Rat) (minSize : Nat) (calls : List Call) : ((DataRate.new offset 0 minSize now).run calls).rates = speeds offset now (counted now calls) := by
  have key : ∀ (cs : List Call) (d : DataRate), d.size = 0 → (d.run cs).rates = d.rates ++ speeds d.lastOffset d.lastTime (counted d.lastTime cs) := by
    intro cs
    induction cs with
    | nil => intro d _; simp [counted, speeds, DataRate.run]
    | cons c cs ih =>
      intro d h1
      have e : d.run (c :: cs) = (d.update c.now c.now2 c.offset).run cs := rfl
      rw [e]
      by_cases hc : d.lastTime + 1 ≤ c.now
      · rw [update_counted d c hc]
        refine (ih _ ?_).trans ?_
        · exact h1
        rw [counted, if_pos hc, speeds]
        simp [lastSlice, h1]
      · rw [update_early d c hc, ih d h1, counted, if_neg hc]
  have := key calls (DataRate.new offset 0 minSize now) rfl
  simpa [DataRate.new] using this

/-! ### Example -/

/-- Of these four calls the second is too early. -/
def fourCalls : List Call := [⟨1, 1, 100⟩, ⟨3/2, 3/2, 150⟩, ⟨3, 3, 500⟩, ⟨4, 4, 800⟩]

example : speeds 0 0 (counted 0 fourCalls) = [100, 200, 300] := by
  norm_num [fourCalls, counted, speeds]

example : ((DataRate.new 0 20 3 0).run fourCalls).average = some 200 := by
  rw [C174_average 0 0 20 3 (by decide) (by decide) (by decide)]
  norm_num [fourCalls, counted, speeds, meanOf, lastN]

end Hachoir.Props
