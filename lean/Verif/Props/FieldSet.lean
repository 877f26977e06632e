import Verif.Field.NumberLemmas

/-!
# Properties C19, C20, C21, C22: lazily read field sets

`GoodGen g` is the condition on the names used by a parser's `createFields` (at
all depths).  `GoodFor A g` says: `A` is a set of keys numbered automatically, that
is, all names `x[]` used have `x` in `A` and all other names `n` used are in `A`
themselves (they get numbered when they clash) and are not of the form `k[i]` for a
key `k` of `A`.  A parser never using explicit numbers is good for the set of all
names, and one using `line[0]`, `line[1]`, … is good as long as it uses neither
`line` nor `line[]`.
-/

set_option linter.unusedVariables false

namespace Hachoir.Props
open Hachoir Hachoir.FieldSet

variable {A : Name → Prop}

/-! ### Specifications -/

/-- `t` is the field set `fs` or one somewhere below it. -/
inductive InTree : FS → FS → Prop
  | self (fs) : InTree fs fs
  | child (fs n a sub t) : Fld.set n a sub ∈ fs.fields → InTree sub t → InTree fs t

/-- Fields without gap and without overlap from 0 on. -/
def Contiguous (l : List Fld) : Prop :=
  ∀ i f, l[i]? = some f → f.addr = ((l.take i).map Fld.size).sum

/-! ### From the invariant to the specifications -/

theorem tiled_contiguous {l : List Fld} {a b : Nat} (h : Tiled l a b) :
    (∀ i f, l[i]? = some f → f.addr = a + ((l.take i).map Fld.size).sum) ∧ b = a + (l.map Fld.size).sum := by
  induction l generalizing a with
  | nil => simp [Tiled] at h; simp [h]
  | cons f r ih =>
    obtain ⟨i1, i2⟩ := ih h.2
    constructor
    · intro i x hx
      cases i with
      | zero => simp at hx; subst hx; simp [h.1]
      | succ i =>
        simp at hx
        have := i1 i x hx
        simp only [List.take_succ_cons, List.map_cons, List.sum_cons]; omega
    · simp; omega

theorem contiguous_of_ok {fs : FS} (h : Ok A fs) :
    Contiguous fs.fields ∧ fs.cur = (fs.fields.map Fld.size).sum := by
  obtain ⟨h1, h2⟩ := tiled_contiguous h.tiled
  exact ⟨fun i f hf => by simpa using h1 i f hf, by simpa using h2⟩

theorem inTree_ok {fs t : FS} (h : InTree fs t) (hO : Ok A fs) : ∃ A', Ok A' t := by
  induction h generalizing A with
  | self fs => exact ⟨A, hO⟩
  | child fs n a sub t hm _ ih =>
    obtain ⟨A', h'⟩ := OkSome.get (hO.sub n a sub hm)
    exact ih h'

/-! ### Examples -/

/-- A generator from a list of actions. -/
def listGen (l : List GenStep) : Gen := fun v => (l[v.calls]?).getD .stop

theorem listGen_good (l : List GenStep) (h : ∀ i, GenStep.yield i ∈ l → GoodItem A i) : GoodFor A (listGen l) := by
  intro v i hv
  unfold listGen at hv
  cases hx : l[v.calls]? with
  | none => rw [hx] at hv; cases hv
  | some s =>
    rw [hx] at hv
    simp at hv
    subst hv
    exact h i (List.mem_of_getElem? hx)

/-- A header, blocks of unknown size in an array, and a parser error in the
second one. -/
def blockGen : Gen := listGen [
  .yield (.leaf "len".toList (.ok 8)),
  .yield (.leaf "data[]".toList (.ok 16))]

def badGen : Gen := listGen [
  .yield (.leaf "len".toList (.ok 8)),
  .raise .parser]

def fileGen : Gen := listGen [
  .yield (.leaf "magic".toList (.ok 32)),
  .yield (.set "block[]".toList none blockGen),
  .yield (.set "block[]".toList (some 40) badGen),
  .yield (.leaf "magic".toList (.ok 8)),
  .yield (.leaf "tail[]".toList (.ok 4))]

/-- Lines numbered by the parser itself, as the text parsers do. -/
def linesGen : Gen := listGen [
  .yield (.leaf "line[0]".toList (.ok 8)),
  .yield (.leaf "line[1]".toList (.ok 16)),
  .yield (.leaf "raw".toList (.ok 8)),
  .yield (.leaf "line[1]".toList (.ok 8))]

/-- Names without explicit numbers are good for all keys. -/
theorem good_auto {n : Name} (h : isArray n = true ∨ n.getLast? ≠ some ']') : GoodName (fun _ => True) n := by
  by_cases ha : isArray n = true
  · exact Or.inl ⟨ha, trivial⟩
  · refine Or.inr ⟨by simpa using ha, trivial, ?_⟩
    rintro k i _ rfl
    rcases h with h | h
    · exact ha h
    · exact indexed_not_plain _ _ h

theorem blockGen_good : GoodFor (fun _ => True) blockGen := by
  apply listGen_good
  intro i hi
  simp only [List.mem_cons, List.not_mem_nil, or_false, GenStep.yield.injEq] at hi
  rcases hi with rfl | rfl <;> exact .leaf _ _ _ (good_auto (by decide))

theorem badGen_good : GoodFor (fun _ => True) badGen := by
  apply listGen_good
  intro i hi
  simp only [List.mem_cons, List.not_mem_nil, or_false, GenStep.yield.injEq, reduceCtorEq] at hi
  subst hi
  exact .leaf _ _ _ (good_auto (by decide))

theorem fileGen_good : GoodFor (fun _ => True) fileGen := by
  apply listGen_good
  intro i hi
  simp only [List.mem_cons, List.not_mem_nil, or_false, GenStep.yield.injEq] at hi
  rcases hi with rfl | rfl | rfl | rfl | rfl
  · exact .leaf _ _ _ (good_auto (by decide))
  · exact .set _ _ _ _ _ (good_auto (by decide)) blockGen_good
  · exact .set _ _ _ _ _ (good_auto (by decide)) badGen_good
  · exact .leaf _ _ _ (good_auto (by decide))
  · exact .leaf _ _ _ (good_auto (by decide))

/-- `linesGen` is good for all keys but `line`. -/
theorem linesGen_good : GoodFor (fun k => k ≠ "line".toList) linesGen := by
  have key : ∀ i, indexed "line".toList i ≠ "line".toList ∧
      ∀ k j, k ≠ "line".toList → indexed "line".toList i ≠ indexed k j := by
    intro i
    refine ⟨fun e => ?_, fun k j hk e => hk (indexed_inj e).1.symm⟩
    have := indexed_last "line".toList i
    rw [e] at this
    exact absurd this (by decide)
  have e0 : "line[0]".toList = indexed "line".toList 0 := by decide +kernel
  have e1 : "line[1]".toList = indexed "line".toList 1 := by decide +kernel
  apply listGen_good
  intro i hi
  simp only [List.mem_cons, List.not_mem_nil, or_false, GenStep.yield.injEq] at hi
  rcases hi with rfl | rfl | rfl | rfl
  · exact .leaf _ _ _ (Or.inr ⟨by decide, by rw [e0]; exact key 0⟩)
  · exact .leaf _ _ _ (Or.inr ⟨by decide, by rw [e1]; exact key 1⟩)
  · refine .leaf _ _ _ (Or.inr ⟨by decide, by decide, ?_⟩)
    intro k i _ e
    have := indexed_last k i
    rw [← e] at this
    exact absurd this (by decide)
  · exact .leaf _ _ _ (Or.inr ⟨by decide, by rw [e1]; exact key 1⟩)

/-- The clash of an explicit number. -/
example : (feedAll 20 true 0 (FSet.new (some 48) linesGen)).1.fields.map shape =
    [("line[0]".toList, 0, 8), ("line[1]".toList, 8, 16), ("raw".toList, 24, 8), ("line[1][0]".toList, 32, 8),
     ("raw[]".toList, 40, 8)] := by decide +kernel

/-- The file of 128 bits completely read. -/
example : (feedAll 20 true 0 (FSet.new (some 128) fileGen)).1.fields.map shape =
    [("magic".toList, 0, 32), ("block[0]".toList, 32, 24), ("block[1]".toList, 56, 40), ("magic[0]".toList, 96, 8),
     ("tail[0]".toList, 104, 4), ("raw[]".toList, 108, 20)] := by decide +kernel

/-! ### C19 -/

/-- **C19.**  Whatever the parser does and whatever was accessed anywhere in the
tree, the fields of every field set of the tree are contiguous from 0 and the
consumed size is the sum of their sizes. -/
theorem C19_fields_tile (fuel : Nat) (af : Bool) (z : Nat) (g : Gen) (hg : GoodGen g)
    (hist : List (List Nat × Op)) (t : FS) (ht : InTree (accessesAt fuel af (FSet.new (some z) g) hist).1 t) :
    Contiguous t.fields ∧ t.cur = (t.fields.map Fld.size).sum ∧ ∀ s, t.size = some s → t.cur ≤ s := by
  obtain ⟨A₀, hg⟩ := hg
  obtain ⟨A, hO⟩ := inTree_ok ht (accessesAt_ok fuel af hist _ (Ok.new _ _ hg)).1
  obtain ⟨h1, h2⟩ := contiguous_of_ok hO
  exact ⟨h1, h2, hO.inside⟩

/-- A history that reads parts of the tree, with the state it leads to. -/
example : (accessesAt 20 true (FSet.new (some 128) fileGen)
      [([], .name "block[1]".toList), ([2], .len), ([1], .index 1), ([], .readMore 1)]).1.fields.map shape =
    [("magic".toList, 0, 32), ("block[0]".toList, 32, 24), ("block[1]".toList, 56, 40), ("magic[0]".toList, 96, 8)] := by
  decide +kernel

/-- With a name like `a[0]` chosen by the parser this fails: the third field is
refused twice (as `a` and as `a[0]`), but its size stays counted. -/
theorem C19_explicit_number_leaves_hole :
    ∃ (g : Gen) (z : Nat),
      let fs := (feedAll 10 true 0 (FSet.new (some z) g)).1
      fs.fields.map shape = [("a".toList, 0, 8), ("a[0]".toList, 8, 8), ("raw[]".toList, 24, 8)] ∧
      fs.cur = 32 ∧ fs.cur ≠ (fs.fields.map Fld.size).sum := by
  refine ⟨listGen [.yield (.leaf "a".toList (.ok 8)), .yield (.leaf "a[0]".toList (.ok 8)),
    .yield (.leaf "a".toList (.ok 8))], 32, ?_⟩
  decide +kernel

/-! ### C20 -/

/-- **C20.**  With automatic fixing on, a complete reading of a field set of known
size (new, or at any stage of reading: `Ok` holds at every moment, see
`C19_fields_tile`) never ends with an exception, and its fields then cover the
size exactly. -/
theorem C20_autofix_covers (fuel : Nat) (z : Nat) (g : Gen) (hg : GoodGen g) (hist : List (List Nat × Op)) (t : FS)
    (ht : InTree (accessesAt fuel true (FSet.new (some z) g) hist).1 t) (s : Nat) (hs : t.size = some s) (ctx : Int)
    (fuel' : Nat) (t' : FS) (r : Fed) (hr : feedAll fuel' true ctx t = (t', r)) (hf : r ≠ .fuel) :
    r = .done ∧ t'.size = some s ∧ Contiguous t'.fields ∧ (t'.fields.map Fld.size).sum = s := by
  obtain ⟨A₀, hg⟩ := hg
  obtain ⟨A, hO⟩ := inTree_ok ht (accessesAt_ok fuel true hist _ (Ok.new _ _ hg)).1
  have hF := (feed_ok fuel').2.2 _ true ctx t hO
  rw [hr] at hF
  obtain ⟨f1, f2, f3, f4⟩ := hF
  have hs' := f2 s hs
  simp only at hs' f4 f1
  obtain ⟨c1, c2⟩ := contiguous_of_ok f1
  cases r with
  | done =>
    simp only at f4
    refine ⟨rfl, hs', c1, ?_⟩
    have := f1.closed f4
    rw [hs'] at this
    injection this with this
    rw [← c2, this]
  | raise e =>
    simp only at f4
    rcases f4.2 with h | h
    · cases h
    · rw [hs'] at h; cases h
  | fuel => exact absurd rfl hf

/-- An exception in the middle: the block whose parser raises is complete
nevertheless. -/
example : (feedAll 9 true 0 (FSet.new (some 40) badGen)).2 = .done ∧
    (feedAll 9 true 0 (FSet.new (some 40) badGen)).1.fields.map shape =
      [("len".toList, 0, 8), ("raw[]".toList, 8, 32)] := by decide +kernel

/-- A field that does not fit is replaced by raw data. -/
example : (feedAll 9 true 0 (FSet.new (some 20) blockGen)).1.fields.map shape =
    [("len".toList, 0, 8), ("raw[]".toList, 8, 12)] := by decide +kernel

/-- **C20.**  What is added when the parser stops early: one raw field for the
rest. -/
theorem C20_missing_content_filled (fuel : Nat) (ctx : Int) (fs : FS) (hO : Ok A fs) (g : Gen) (hg : fs.gen = some g)
    (s : Nat) (hs : fs.size = some s) (hstop : g fs.view = .stop ∨ ∃ e, g fs.view = .raise e) (hlt : fs.cur < s) :
    ∃ t, feedStep (fuel + 1) true ctx fs g = (t, .done (some (.leaf "raw[]".toList fs.cur (s - fs.cur)))) ∧
      t.fields = fs.fields ++ [.leaf "raw[]".toList fs.cur (s - fs.cur)] := by
  have hfix := fixLastField_ok ((hO.calls (fs.calls + 1)).dead (by simp [hg])) (by simp) s hs
  obtain ⟨t, new, e1, e2, e3, e4, e5, e6, e7⟩ := hfix
  simp only at e1 e6 e7
  rw [if_neg (by omega)] at e7
  subst e7
  refine ⟨t, ?_, by simpa [rawName] using e6⟩
  rw [feedStep]
  rcases hstop with h | ⟨e, h⟩
  · simp only [genNext, h, stopFeeding, hs]
    rw [if_pos (by omega)]
    rw [hs] at e1
    simp only [e1, if_true, finish]
    rfl
  · simp only [genNext, h, fixFeedError, hs]
    rw [hs] at e1
    simp only [e1, if_true, finish]
    rfl

/-- **C20.**  With automatic fixing off a complete reading without exception
means exact coverage as well. -/
theorem C20_strict_covers (fuel : Nat) (z : Nat) (g : Gen) (hg : GoodGen g) (t : FS)
    (hr : feedAll fuel false 0 (FSet.new (some z) g) = (t, .done)) :
    t.size = some z ∧ Contiguous t.fields ∧ (t.fields.map Fld.size).sum = z := by
  obtain ⟨A, hg⟩ := hg
  have hF := (feed_ok fuel).2.2 _ false 0 _ (Ok.new (some z) g hg)
  rw [hr] at hF
  obtain ⟨f1, f2, f3, f4⟩ := hF
  have hs' := f2 z rfl
  simp only at hs' f4 f1
  obtain ⟨c1, c2⟩ := contiguous_of_ok f1
  refine ⟨hs', c1, ?_⟩
  have := f1.closed f4
  rw [hs'] at this
  injection this with this
  rw [← c2, this]

example : (feedAll 9 false 0 (FSet.new (some 24) blockGen)).2 = .done := by decide +kernel

/-- **C20.**  With automatic fixing off, a parser that stops before or after the
end of the field set gives ParserError. -/
theorem C20_strict_underrun (fuel : Nat) (ctx : Int) (fs : FS) (g : Gen) (s : Nat) (hs : fs.size = some s)
    (hstop : g fs.view = .stop) (hne : fs.cur ≠ s) :
    ∃ t, feedStep (fuel + 1) false ctx fs g = (t, .raise .parser) ∧ t.fields = fs.fields := by
  rw [feedStep]
  simp only [genNext, hstop, stopFeeding, hs]
  rw [if_pos (fun e => hne e.symm)]
  exact ⟨_, rfl, rfl⟩

/-- **C20.**  … and a field that does not fit does so, too. -/
theorem C20_strict_overrun (fuel : Nat) (ctx : Int) (fs : FS) (g : Gen) (s : Nat) (hs : fs.size = some s)
    (name : Name) (n : Nat) (hy : g fs.view = .yield (.leaf name (.ok n))) (hlt : s < fs.cur + n) :
    ∃ t, feedStep (fuel + 2) false ctx fs g = (t, .raise .parser) ∧ t.fields = fs.fields := by
  rw [feedStep]
  simp only [genNext, hy]
  rw [addField]
  rcases hu : nameItem { fs with calls := fs.calls + 1 } name with ⟨nm, counts⟩
  simp only [placeField, fixFieldSize, room, hs, Fld.size]
  rw [if_pos (Or.inl (by omega))]
  simp only [Bool.false_eq_true, false_and, if_false, fixFeedError, finish]
  exact ⟨_, rfl, rfl⟩

example : (feedStep 9 false 0 (FSet.new (some 4) blockGen) blockGen).1.fields.length = 0 ∧
    (feedAll 9 false 0 (FSet.new (some 4) blockGen)).2 = .raise .parser := by decide +kernel

/-! ### C21 -/

/-- **C21.**  At every moment, in every field set of the tree, all names are
different. -/
theorem C21_names_unique (fuel : Nat) (af : Bool) (z : Nat) (g : Gen) (hg : GoodGen g)
    (hist : List (List Nat × Op)) (t : FS) (ht : InTree (accessesAt fuel af (FSet.new (some z) g) hist).1 t) :
    (t.fields.map Fld.name).Nodup := by
  obtain ⟨A₀, hg⟩ := hg
  obtain ⟨A, hO⟩ := inTree_ok ht (accessesAt_ok fuel af hist _ (Ok.new _ _ hg)).1
  exact hO.names.nodup

/-- **C21.**  The numbers given to one key grow in the order of the fields. -/
theorem C21_numbers_grow (fuel : Nat) (af : Bool) (z : Nat) (g : Gen) (A : Name → Prop) (hg : GoodFor A g)
    (hist : List (List Nat × Op)) :
    ((accessesAt fuel af (FSet.new (some z) g) hist).1.fields.map Fld.name).Pairwise
      (fun a b => ∀ k i j, A k → a = indexed k i → b = indexed k j → i < j) :=
  (accessesAt_ok fuel af hist _ (Ok.new _ _ hg)).1.names.incr

/-- **C21.**  When reading goes through without exception, the numbers of an array
have no gaps: with `x[i+1]` there is `x[i]`, at every moment. -/
theorem C21_numbers_consecutive (fuel : Nat) (af : Bool) (ctx : Int) (size : Option Nat) (g : Gen)
    (A : Name → Prop) (hg : GoodFor A g)
    (final : FS) (hr : feedAll fuel af ctx (FSet.new size g) = (final, .done))
    (fuel' : Nat) (ops : List Op) (hf : Out.fuel ∉ (accesses fuel' af ctx (FSet.new size g) ops).2)
    (k : Name) (hk : A k) (i : Nat)
    (hi : indexed k (i + 1) ∈ (accesses fuel' af ctx (FSet.new size g) ops).1.fields.map Fld.name) :
    indexed k i ∈ (accesses fuel' af ctx (FSet.new size g) ops).1.fields.map Fld.name := by
  have hng : NoGaps A (final.fields.map Fld.name) :=
    feedAll_noGaps fuel (Ok.new size g hg) (by
      intro k i _; simp [FSet.new, lookup]) hr
  have key : ∀ (ops : List Op) (fs : FS), Ok A fs → Reads af ctx fs final →
      Out.fuel ∉ (accesses fuel' af ctx fs ops).2 →
      Ok A (accesses fuel' af ctx fs ops).1 ∧ Reads af ctx (accesses fuel' af ctx fs ops).1 final := by
    intro ops
    induction ops with
    | nil => intro fs hO hR _; exact ⟨hO, hR⟩
    | cons op ops ih =>
      intro fs hO hR hf
      simp only [accesses] at hf ⊢
      rcases ha : access fuel' af ctx fs op with ⟨fs', o⟩
      rw [ha] at hf
      simp only [List.mem_cons, not_or] at hf ⊢
      have hO' := access_grows fuel' af ctx fs op hO
      rw [ha] at hO'
      exact ih fs' hO'.1 (access_reads fuel' hO hR ha (fun e => hf.1 e.symm)).1 hf.2
  obtain ⟨k1, k2⟩ := key ops _ (Ok.new size g hg) ⟨fuel, hr⟩ hf
  have hG := k2.grows k1
  exact NoGaps.prefix hng hG.1.1.names.incr (prefix_map Fld.name hG.1.2.2) k i hk hi

/-- **C21.**  A name in use gets the next number of its own. -/
theorem C21_clash_numbered (fs : FS) (f : Fld) (hm : f.name ∈ fs.fields.map Fld.name)
    (hO : Ok A fs) (hg : fs.gen ≠ none) (hA : A f.name) :
    ∃ i, (appendPart fs f false).2 = .ok (indexed f.name i) ∧ indexed f.name i ∉ fs.fields.map Fld.name ∧
      (appendPart fs f false).1.fields = fs.fields ++ [f.rename (indexed f.name i)] := by
  obtain ⟨n, e1, e2, e3⟩ := uniqueName_fst fs.counts (f.name ++ ['[', ']'])
  rw [arrayKey_append] at e1 e2 e3
  have hfresh := (hO.names.mono (fun e => absurd e hg)).fresh f.name hA n e3 (p := False)
  rcases hu : uniqueName fs.counts (f.name ++ ['[', ']']) with ⟨un, uc⟩
  rw [hu] at e1 e2
  simp only at e1 e2
  subst e1; subst e2
  refine ⟨n, ?_, hfresh, ?_⟩
  · simp [appendPart, appendField, hm, hu, rename_name, hfresh]
  · simp [appendPart, appendField, hm, hu, rename_name, hfresh]

/-- The names in `fileGen`: two arrays, and a clash on `magic`. -/
example : (accesses 20 true 0 (FSet.new (some 128) fileGen) [.name "tail[0]".toList, .len]).1.fields.map Fld.name =
    ["magic".toList, "block[0]".toList, "block[1]".toList, "magic[0]".toList, "tail[0]".toList, "raw[]".toList] := by
  decide +kernel

/-- Numbers do have gaps when reading goes on after an exception. -/
theorem C21_gap_after_exception :
    ∃ g : Gen, GoodGen g ∧
      (accesses 10 false 0 (FSet.new (some 16) g) [.readMore 2, .readMore 2]).1.fields.map Fld.name =
        ["a[0]".toList, "a[2]".toList] := by
  refine ⟨listGen [.yield (.leaf "a[]".toList (.ok 8)), .yield (.leaf "a[]".toList (.error .value)),
    .yield (.leaf "a[]".toList (.ok 8))], ⟨fun _ => True, ?_⟩, by decide +kernel⟩
  apply listGen_good
  intro i hi
  simp only [List.mem_cons, List.not_mem_nil, or_false, GenStep.yield.injEq] at hi
  rcases hi with rfl | rfl | rfl <;> exact .leaf _ _ _ (good_auto (by decide))

/-! ### C22 -/

/-- **C22.**  One field set.  If the complete reading of a field set gives
`final`, then after any history of accesses the fields are the first ones of
`final`, reading the rest gives exactly `final`, and every answer given on the way
is the one read off `final`. -/
theorem C22_order_independent (fuel : Nat) (af : Bool) (ctx : Int) (size : Option Nat) (g : Gen) (hg : GoodGen g)
    (final : FS) (hr : feedAll fuel af ctx (FSet.new size g) = (final, .done)) (fuel' : Nat) (ops : List Op)
    (hf : Out.fuel ∉ (accesses fuel' af ctx (FSet.new size g) ops).2) :
    (accesses fuel' af ctx (FSet.new size g) ops).1.fields <+: final.fields ∧
    (∃ F, feedAll F af ctx (accesses fuel' af ctx (FSet.new size g) ops).1 = (final, .done)) ∧
    List.Forall₂ (fun op out => Answer (final.fields.map shape) op out) ops
      (accesses fuel' af ctx (FSet.new size g) ops).2 := by
  obtain ⟨A, hg⟩ := hg
  have key : ∀ (ops : List Op) (fs : FS), Ok A fs → Reads af ctx fs final →
      Out.fuel ∉ (accesses fuel' af ctx fs ops).2 →
      Ok A (accesses fuel' af ctx fs ops).1 ∧ Reads af ctx (accesses fuel' af ctx fs ops).1 final ∧
      List.Forall₂ (fun op out => Answer (final.fields.map shape) op out) ops (accesses fuel' af ctx fs ops).2 := by
    intro ops
    induction ops with
    | nil => intro fs hO hR _; exact ⟨hO, hR, List.Forall₂.nil⟩
    | cons op ops ih =>
      intro fs hO hR hf
      simp only [accesses] at hf ⊢
      rcases ha : access fuel' af ctx fs op with ⟨fs', o⟩
      rw [ha] at hf
      simp only [List.mem_cons, not_or] at hf ⊢
      have hO' := access_grows fuel' af ctx fs op hO
      rw [ha] at hO'
      obtain ⟨a1, a2⟩ := access_reads fuel' hO hR ha (fun e => hf.1 e.symm)
      obtain ⟨b1, b2, b3⟩ := ih fs' hO'.1 a1 hf.2
      exact ⟨b1, b2, List.Forall₂.cons a2 b3⟩
  obtain ⟨k1, k2, k3⟩ := key ops _ (Ok.new size g hg) ⟨fuel, hr⟩ hf
  exact ⟨(k2.grows k1).1.2.2, k2, k3⟩

/-- The hypotheses: the file is read completely, and a history needs no more
steps than the bound. -/
example : (feedAll 20 true 0 (FSet.new (some 128) fileGen)).2 = .done := by decide +kernel

example : (accesses 20 true 0 (FSet.new (some 128) fileGen) [.index 2, .name "magic[0]".toList, .readMore 1,
      .name "none".toList, .index 9, .len]).2.map (fun o => match o with
        | .field f => some (shape f)
        | .number n => some ([], n.toNat, 0)
        | _ => none) =
    [some ("block[1]".toList, 56, 40), some ("magic[0]".toList, 96, 8), some ([], 1, 0), none, none,
      some ([], 6, 0)] := by decide +kernel

/-- **C22.**  The whole tree.  `full` is the tree read completely at all depths;
accesses all over the tree, in any order, lead on to the same `full`, and every
answer is the one read off the field set of `full` at that place. -/
theorem C22_tree_order_independent (af : Bool) (z : Nat) (g : Gen) (hg : GoodGen g) (d : Nat) (full : FS)
    (hD : Deep af d (FSet.new (some z) g) full) (fuel : Nat) (hist : List (List Nat × Op))
    (hf : Out.fuel ∉ (accessesAt fuel af (FSet.new (some z) g) hist).2) :
    Deep af d (accessesAt fuel af (FSet.new (some z) g) hist).1 full ∧
    List.Forall₂ (fun x out => (∃ node, nodeAt full x.1 = some node ∧ Answer (node.fields.map shape) x.2 out) ∨
      out = .raise .missingField) hist (accessesAt fuel af (FSet.new (some z) g) hist).2 := by
  obtain ⟨A, hg⟩ := hg
  have key : ∀ (hist : List (List Nat × Op)) (fs : FS), Ok A fs → Deep af d fs full →
      Out.fuel ∉ (accessesAt fuel af fs hist).2 →
      Deep af d (accessesAt fuel af fs hist).1 full ∧
      List.Forall₂ (fun x out => (∃ node, nodeAt full x.1 = some node ∧ Answer (node.fields.map shape) x.2 out) ∨
        out = .raise .missingField) hist (accessesAt fuel af fs hist).2 := by
    intro hist
    induction hist with
    | nil => intro fs hO hD _; exact ⟨hD, List.Forall₂.nil⟩
    | cons x rest ih =>
      obtain ⟨path, op⟩ := x
      intro fs hO hD hf
      simp only [accessesAt] at hf ⊢
      rcases ha : accessAt fuel af fs path op with ⟨fs', o⟩
      rw [ha] at hf
      simp only [List.mem_cons, not_or] at hf ⊢
      have hO' := accessAt_ok fuel af path op A fs hO
      rw [ha] at hO'
      obtain ⟨a1, a2⟩ := accessAt_deep fuel op path hO hD ha (fun e => hf.1 e.symm)
      obtain ⟨b1, b2⟩ := ih fs' hO'.1 a1 hf.2
      refine ⟨b1, List.Forall₂.cons ?_ b2⟩
      rcases a2 with h | ⟨_, h, _⟩
      · exact Or.inl h
      · exact Or.inr h
  exact key hist _ (Ok.new _ g hg) hD hf

/-- Complete reading inside one field. -/
def readInside (f : FS → Option FS) : Fld → Option Fld
  | .leaf n a s => some (Fld.leaf n a s)
  | .set n a s => (f s).map (Fld.set n a)

/-- Complete reading as a function, for the example. -/
def readAll (af : Bool) (fuel : Nat) : Nat → FS → Option FS
  | 0, _ => none
  | d + 1, fs =>
    match feedAll fuel af 0 fs with
    | (fs1, .done) =>
      (fs1.fields.mapM (readInside (readAll af fuel d))).map (fun l => { fs1 with fields := l })
    | _ => none

theorem readAll_deep (af : Bool) (fuel : Nat) (d : Nat) :
    ∀ fs full, readAll af fuel d fs = some full → Deep af d fs full := by
  induction d with
  | zero => intro fs full h; cases h
  | succ d ih =>
    intro fs full h
    rw [readAll] at h
    split at h
    · rename_i fs1 hr
      cases hm : fs1.fields.mapM (readInside (readAll af fuel d)) with
      | none => rw [hm] at h; cases h
      | some l =>
        rw [hm] at h
        simp at h
        subst h
        refine ⟨fs1, ⟨fuel, hr⟩, rfl, ?_⟩
        simp only
        clear hr
        generalize fs1.fields = fl at hm
        induction fl generalizing l with
        | nil => simp at hm; subst hm; exact .nil
        | cons x r ihr =>
          rw [List.mapM_cons] at hm
          simp only [Option.bind_eq_bind, Option.bind_eq_some_iff, Option.pure_def, Option.some.injEq] at hm
          obtain ⟨y, hy, l', hl', rfl⟩ := hm
          refine .cons ?_ (ihr l' hl')
          cases x with
          | leaf n a s => simp [readInside] at hy; subst hy; exact Or.inl ⟨_, _, _, rfl, rfl⟩
          | set n a s =>
            simp [readInside] at hy
            obtain ⟨s', hs', rfl⟩ := hy
            exact Or.inr ⟨_, _, _, _, rfl, rfl, ih s s' hs'⟩
    · cases h

/-- A tree read completely at all depths. -/
example : ∃ full, Deep true 2 (FSet.new (some 128) fileGen) full := by
  have h : (readAll true 20 2 (FSet.new (some 128) fileGen)).isSome = true := by decide +kernel
  obtain ⟨full, hf⟩ := Option.isSome_iff_exists.mp h
  exact ⟨full, readAll_deep _ _ _ _ _ hf⟩

/-- The exception about names: the field added while reading ends is not found by
the access that makes it, only by the next one. -/
theorem C22_name_found_second_time :
    (accesses 9 true 0 (FSet.new (some 40) badGen) [.name "raw[]".toList, .name "raw[]".toList]).2.map
      (fun o => match o with
        | .field f => Except.ok (shape f)
        | .raise e => .error e
        | _ => .error .runtime) =
    [.error .missingField, .ok ("raw[]".toList, 8, 32)] := by decide +kernel

/-- The exception about iteration: if a field set of unknown size at the end of its
parent raises, the first iteration does not show it, the second does. -/
theorem C22_iteration_skips_field :
    (accesses 9 true 0 (FSet.new (some 16) (listGen [.yield (.leaf "a".toList (.ok 8)),
      .yield (.set "s".toList none (listGen [.yield (.leaf "x".toList (.ok 8)), .raise .value]))])) [.iter, .iter]).2.map
      (fun o => match o with
        | .fields l => l.map Fld.name
        | _ => []) =
    [["a".toList], ["a".toList, "s".toList]] := by decide +kernel

end Hachoir.Props
