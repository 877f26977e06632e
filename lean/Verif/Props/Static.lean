import Verif.Field.Static

/-!
# C82: the size of a static field set is the sum of the sizes of its fields
-/

set_option linter.unusedVariables false

namespace Hachoir.Props
open Hachoir Hachoir.Static

/-! ### Specification -/

/-- `items` is the format of the class `c`: its own or that of its nearest base class with one. -/
inductive HasFormat (T : Classes) : Nat → List Item → Prop
  | own (c : Nat) (items : List Item) : (T c).format = some items → HasFormat T c items
  | inherited (c b : Nat) (items : List Item) : (T c).format = none → (T c).base = some b →
      HasFormat T b items → HasFormat T c items

mutual
/-- The fields of an instance of `c` have `s` bits. -/
inductive SizeOf (T : Classes) : Nat → Nat → Prop
  | mk (c : Nat) (items : List Item) (s : Nat) : HasFormat T c items → SizeOfItems T items s → SizeOf T c s
/-- The fields that `items` make have `s` bits. -/
inductive SizeOfItems (T : Classes) : List Item → Nat → Prop
  | nil : SizeOfItems T [] 0
  | plain (n : Nat) (items : List Item) (s : Nat) : SizeOfItems T items s →
      SizeOfItems T (.plain (some n) :: items) (n + s)
  | sub (d a : Nat) (items : List Item) (s : Nat) : SizeOf T d a → SizeOfItems T items s →
      SizeOfItems T (.sub d :: items) (a + s)
end

/-- `a` is a base class of `c`, or a base class of its base classes. -/
inductive Ancestor (T : Classes) (a : Nat) : Nat → Prop
  | base (c : Nat) : (T c).base = some a → Ancestor T a c
  | step (b c : Nat) : (T c).base = some b → Ancestor T a b → Ancestor T a c

/-- Classes are defined before they are used. -/
def PartsBefore (T : Classes) : Prop :=
  ∀ c, (∀ b, (T c).base = some b → b < c) ∧ ∀ items, (T c).format = some items → ∀ d, Item.sub d ∈ items → d < c

/-- No class has the name of one of its base classes. -/
def OwnNames (T : Classes) : Prop := ∀ a c, Ancestor T a c → (T a).name ≠ (T c).name

/-- The classes used in formats are derived from `StaticFieldSet` directly. -/
def PlainParts (T : Classes) : Prop :=
  ∀ c items, (T c).format = some items → ∀ d, Item.sub d ∈ items → (T d).base = none

/-- What an instance and a vector should be when `past` was done before. -/
def Right (T : Classes) (past : List Op) : Op → Made → Prop
  | .inst c, made => ∀ s, SizeOf T c s → made = .inst (.ok (if s = 0 then none else some s))
  | .vector c n, made => (T c).base = none → ∀ s, SizeOf T c s →
      made = .vector (if Op.inst c ∈ past then (if n ≤ 0 then .error .parser else .ok (n * s)) else .error .assertion)

/-- All results of a program are right. -/
def AllRight (T : Classes) (past : List Op) : List Op → List Made → Prop
  | [], made => made = []
  | op :: ops, made => ∃ m ms, made = m :: ms ∧ Right T past op m ∧ AllRight T (past ++ [op]) ops ms

/-! ### Lemmas -/

theorem hasFormat_unique {T : Classes} {c : Nat} {i j : List Item} (h : HasFormat T c i) (h' : HasFormat T c j) : i = j := by
  induction h with
  | own c i hi =>
    cases h' with
    | own _ _ hj => rw [hi] at hj; exact Option.some.inj hj
    | inherited _ _ _ hj => rw [hi] at hj; cases hj
  | inherited c b i hn hb _ ih =>
    cases h' with
    | own _ _ hj => rw [hn] at hj; cases hj
    | inherited _ b' _ _ hb' h => rw [hb] at hb'; cases hb'; exact ih h

theorem sizeOf_unique_aux (T : Classes) (ho : PartsBefore T) (c : Nat) : ∀ s s', SizeOf T c s → SizeOf T c s' → s = s' := by
  induction c using Nat.strongRecOn with
  | _ c ih =>
    intro s s' h h'
    cases h with
    | mk _ items _ hf hi =>
    cases h' with
    | mk _ items' _ hf' hi' =>
    have := hasFormat_unique hf hf'
    subst this
    have hlt : ∀ d, Item.sub d ∈ items → d < c := by
      clear hi hi' hf' ih
      induction hf with
      | own c items h => exact (ho c).2 items h
      | inherited c b items hn hb _ ih => intro d hd; have := ih d hd; have := (ho c).1 b hb; omega
    clear hf hf'
    induction items generalizing s s' with
    | nil => cases hi; cases hi'; rfl
    | cons it items ihi =>
      cases hi with
      | plain n _ a ha => cases hi' with | plain _ _ b hb => rw [ihi a b ha hb (fun d hd => hlt d (by simp [hd]))]
      | sub d x _ a hx ha =>
        cases hi' with
        | sub _ y _ b hy hb =>
          rw [ihi a b ha hb (fun d hd => hlt d (by simp [hd])), ih d (hlt d (by simp)) x y hx hy]

theorem lookup_some {α : Type} (T : Classes) (attr : Nat → Option α) (n c : Nat) (v : α) (h : lookup T attr n c = some v) :
    ∃ a, (a = c ∨ Ancestor T a c) ∧ attr a = some v := by
  induction n generalizing c with
  | zero => cases h
  | succ n ih =>
    unfold lookup at h
    cases ha : attr c with
    | some w => rw [ha] at h; cases h; exact ⟨c, .inl rfl, ha⟩
    | none =>
      rw [ha] at h
      simp only at h
      cases hb : (T c).base with
      | none => rw [hb] at h; cases h
      | some b =>
        rw [hb] at h
        obtain ⟨a, h1, h2⟩ := ih b h
        refine ⟨a, .inr ?_, h2⟩
        rcases h1 with rfl | h1
        · exact .base c hb
        · exact .step b c hb h1

theorem lookup_own {α : Type} (T : Classes) (attr : Nat → Option α) (n c : Nat) (v : α) (h : attr c = some v) :
    lookup T attr (n + 1) c = some v := by
  unfold lookup; rw [h]

theorem lookup_root {α : Type} (T : Classes) (attr : Nat → Option α) (n c : Nat) (hb : (T c).base = none) :
    lookup T attr (n + 1) c = attr c := by
  unfold lookup
  cases h : attr c with
  | some v => rfl
  | none => simp only [hb]

theorem lookup_format (T : Classes) (ho : PartsBefore T) (n c : Nat) (hn : c < n) (items : List Item) :
    lookup T (fun c => (T c).format) n c = some items ↔ HasFormat T c items := by
  induction n generalizing c with
  | zero => omega
  | succ n ih =>
    unfold lookup
    cases hf : (T c).format with
    | some i =>
      simp only
      constructor
      · intro h; cases h; exact .own c _ hf
      · intro h; rw [hasFormat_unique h (.own c i hf)]
    | none =>
      simp only
      cases hb : (T c).base with
      | none =>
        simp only [reduceCtorEq, false_iff]
        intro h
        cases h with
        | own _ _ h => rw [hf] at h; cases h
        | inherited _ b _ _ h => rw [hb] at h; cases h
      | some b =>
        simp only
        rw [ih b (by have := (ho c).1 b hb; omega)]
        constructor
        · exact fun h => .inherited c b items hf hb h
        · intro h
          cases h with
          | own _ _ h => rw [hf] at h; cases h
          | inherited _ b' _ _ h h' => rw [hb] at h; cases h; exact h'

theorem format_parts {T : Classes} (ho : PartsBefore T) (hp : PlainParts T) {c : Nat} {items : List Item}
    (h : HasFormat T c items) : ∀ d, Item.sub d ∈ items → d < c ∧ (T d).base = none := by
  induction h with
  | own c items h => exact fun d hd => ⟨(ho c).2 items h d hd, hp c items h d hd⟩
  | inherited c b items hn hb _ ih =>
    intro d hd
    have := ih d hd
    have := (ho c).1 b hb
    exact ⟨by omega, (ih d hd).2⟩

/-- The size computed is right if the sizes stored are. -/
theorem classSize_iff (T : Classes) (ho : PartsBefore T) (hp : PlainParts T) (st : State)
    (hs : ∀ c s, st.sizes c = some s → SizeOf T c s) (n c : Nat) (hn : c < n) (s : Nat) :
    classSize T st n c = .ok s ↔ SizeOf T c s := by
  induction n generalizing c s with
  | zero => omega
  | succ n ih =>
    unfold classSize
    cases hl : lookup T (fun c => (T c).format) (c + 1) c with
    | none =>
      simp only [reduceCtorEq, false_iff]
      intro h
      cases h with
      | mk _ items _ hf _ => rw [(lookup_format T ho (c + 1) c (by omega) items).2 hf] at hl; cases hl
    | some items =>
      simp only
      have hf := (lookup_format T ho (c + 1) c (by omega) items).1 hl
      have hparts := format_parts ho hp hf
      have key : ∀ l, (∀ d, Item.sub d ∈ l → d < c ∧ (T d).base = none) → ∀ s,
          itemsSize (fun d => partSize (lookup T st.sizes (d + 1) d) (classSize T st n d)) l = .ok s ↔ SizeOfItems T l s := by
        intro l
        induction l with
        | nil =>
          intro _ s
          unfold itemsSize
          constructor
          · intro h; cases h; exact .nil
          · intro h; cases h; rfl
        | cons it l ihl =>
          intro hl s
          have ihl := ihl (fun d hd => hl d (by simp [hd]))
          cases it with
          | plain o =>
            cases o with
            | none =>
              unfold itemsSize
              simp only [reduceCtorEq, false_iff]
              intro h; cases h
            | some m =>
              unfold itemsSize
              constructor
              · intro h
                split at h
                · cases h
                · rename_i r hr
                  cases h
                  exact .plain m l r ((ihl r).1 hr)
              · intro h
                cases h with
                | plain _ _ r hr => rw [(ihl r).2 hr]
          | sub d =>
            obtain ⟨hd, hb⟩ := hl d (by simp)
            have hsub : ∀ a, partSize (lookup T st.sizes (d + 1) d) (classSize T st n d) = .ok a ↔ SizeOf T d a := by
              intro a
              rw [lookup_root T st.sizes d d hb]
              cases hz : st.sizes d with
              | some z =>
                simp only [partSize, Except.ok.injEq]
                constructor
                · rintro rfl; exact hs d z hz
                · exact fun h => sizeOf_unique_aux T ho d z a (hs d z hz) h
              | none => exact ih d (by omega) a
            unfold itemsSize
            constructor
            · intro h
              split at h
              · cases h
              · rename_i a ha
                split at h
                · cases h
                · rename_i r hr
                  cases h
                  exact .sub d a l r ((hsub a).1 ha) ((ihl r).1 hr)
            · intro h
              cases h with
              | sub _ a _ r ha hr =>
                have h1 := (hsub a).2 ha
                have h2 := (ihl r).2 hr
                simp only [h1, h2]
      rw [key items hparts s]
      constructor
      · exact fun h => .mk c items s hf h
      · intro h
        cases h with
        | mk _ items' _ hf' hi => rw [hasFormat_unique hf hf']; exact hi

/-- What holds of the class attributes after `past`. -/
structure Kept (T : Classes) (past : List Op) (st : State) : Prop where
  size : ∀ c s, st.sizes c = some s → SizeOf T c s
  name : ∀ c x, st.names c = some x → x = (T c).name
  both : ∀ c s, SizeOf T c s → (st.names c).isSome → st.sizes c = some s
  made : ∀ c s, SizeOf T c s → (Op.inst c ∈ past ↔ (st.sizes c).isSome)

theorem initSize_eq (T : Classes) (st : State) (c s : Nat) (h : st.sizes c = some s) :
    initSize T st c = .ok (if s = 0 then none else some s) := by
  unfold initSize
  rw [lookup_own T st.sizes c c s h]
  cases s <;> rfl

theorem newInstance_kept (T : Classes) (ho : PartsBefore T) (hn : OwnNames T) (hp : PlainParts T) (past : List Op) (st : State)
    (hk : Kept T past st) (c : Nat) :
    Right T past (.inst c) (.inst (newInstance T st c).2) ∧
      Kept T (past ++ [.inst c]) (newInstance T st c).1 := by
  unfold newInstance
  cases hl : lookup T (fun c => (T c).format) (c + 1) c with
  | none =>
    have hno : ∀ s, ¬ SizeOf T c s := by
      intro s h
      cases h with
      | mk _ items _ hf _ => rw [(lookup_format T ho (c + 1) c (by omega) items).2 hf] at hl; cases hl
    refine ⟨fun s h => absurd h (hno s), ⟨hk.size, hk.name, hk.both, fun d s h => ?_⟩⟩
    rw [← hk.made d s h]
    simp only [List.mem_append, List.mem_singleton, Op.inst.injEq, or_iff_left_iff_imp]
    rintro rfl
    exact absurd h (hno s)
  | some items =>
    simp only
    by_cases hname : lookup T st.names (c + 1) c = some (T c).name
    · rw [if_neg (by simp [hname])]
      have hown : (st.names c).isSome := by
        obtain ⟨a, ha, hv⟩ := lookup_some T st.names (c + 1) c _ hname
        rcases ha with rfl | ha
        · rw [hv]; rfl
        · exact absurd (hk.name a _ hv) (fun h => hn a c ha h.symm)
      refine ⟨fun s h => ?_, ⟨hk.size, hk.name, hk.both, fun d s h => ?_⟩⟩
      · simp only
        rw [initSize_eq T st c s (hk.both c s h hown)]
      · have := hk.made d s h
        simp only [List.mem_append, List.mem_singleton, Op.inst.injEq]
        constructor
        · rintro (h' | rfl)
          · exact this.1 h'
          · rw [hk.both d s h hown]; rfl
        · exact fun h' => .inl (this.2 h')
    · rw [if_pos (by simpa using hname)]
      have hcs := classSize_iff T ho hp { st with names := update st.names c (T c).name } hk.size (c + 1) c (by omega)
      have hnm : ∀ d x, update st.names c (T c).name d = some x → x = (T d).name := by
        intro d x h
        unfold update at h
        split at h
        · rename_i hd; cases h; rw [hd]
        · exact hk.name d x h
      cases hr : classSize T { st with names := update st.names c (T c).name } (c + 1) c with
      | error e =>
        have hno : ∀ s, ¬ SizeOf T c s := by
          intro s h
          have := (hcs s).2 h
          rw [hr] at this; cases this
        simp only
        refine ⟨fun s h => absurd h (hno s), ⟨hk.size, hnm, fun d s h hd => ?_, fun d s h => ?_⟩⟩
        · have hdc : d ≠ c := by rintro rfl; exact hno s h
          refine hk.both d s h ?_
          simpa [update, hdc] using hd
        · have hdc : d ≠ c := by rintro rfl; exact hno s h
          rw [← hk.made d s h]
          simp [hdc]
      | ok z =>
        have hz := (hcs z).1 hr
        simp only
        refine ⟨fun s h => ?_, ⟨fun d s h => ?_, hnm, fun d s h hd => ?_, fun d s h => ?_⟩⟩
        · have : s = z := sizeOf_unique_aux T ho c s z h hz
          subst this
          rw [initSize_eq T _ c s (by simp [update])]
        · simp only [update] at h
          split at h
          · rename_i hd; cases h; rw [hd]; exact hz
          · exact hk.size d s h
        · simp only [update] at hd ⊢
          split
          · rename_i hdc
            rw [sizeOf_unique_aux T ho c s z (hdc ▸ h) hz]
          · rename_i hdc
            rw [if_neg hdc] at hd
            exact hk.both d s h hd
        · simp only [update, List.mem_append, List.mem_singleton, Op.inst.injEq]
          by_cases hdc : d = c
          · simp [hdc]
          · simp only [hdc, or_false, if_false]
            exact hk.made d s h

theorem run_right (T : Classes) (ho : PartsBefore T) (hn : OwnNames T) (hp : PlainParts T) (ops past : List Op) (st : State)
    (hk : Kept T past st) : AllRight T past ops (run T st ops) := by
  induction ops generalizing past st with
  | nil => rfl
  | cons op ops ih =>
    cases op with
    | inst c =>
      obtain ⟨h1, h2⟩ := newInstance_kept T ho hn hp past st hk c
      exact ⟨_, _, rfl, h1, ih _ _ h2⟩
    | vector c n =>
      refine ⟨_, _, rfl, fun hb s h => ?_, ih _ _ ⟨hk.size, hk.name, hk.both, fun d s h => ?_⟩⟩
      · unfold vectorSize
        rw [lookup_root T st.sizes c c hb]
        have hm := hk.made c s h
        cases hz : st.sizes c with
        | none => rw [hz] at hm; rw [if_neg (by simp [hm])]
        | some z =>
          rw [hz] at hm
          rw [if_pos (hm.2 rfl), sizeOf_unique_aux T ho c s z h (hk.size c z hz)]
          by_cases h0 : n ≤ 0
          · rw [if_pos h0]; simp only; rw [if_pos (by omega)]
          · rw [if_neg h0]; simp only; rw [if_neg (by omega)]
      · rw [← hk.made d s h]
        simp

/-! ### Theorems -/

/-- C82: whatever instances and vectors a program makes, in whatever order, the size of every
instance is the sum of the sizes of its fields, and a vector of `n` items has the size of `n`
instances if there was an instance before.  Missing: classes with the name of a base class,
derived classes as parts of a format or items of a vector, vectors before the first instance. -/
theorem C82_sizes_partial (T : Classes) (ho : PartsBefore T) (hn : OwnNames T) (hp : PlainParts T) (ops : List Op) :
    AllRight T [] ops (run T start ops) :=
  run_right T ho hn hp ops [] start ⟨(fun _ _ h => by cases h), (fun _ _ h => by cases h), (fun _ _ _ h => by cases h),
    (fun _ _ _ => by simp [start])⟩

/-- The attributes of files of MS-DOS: 16 bits, and a derived class with 32 bits. -/
def dosClasses : Classes
  | 0 => ⟨16, none, some [.plain (some 15), .plain (some 1)]⟩
  | 1 => ⟨32, some 0, some [.plain (some 15), .plain (some 17)]⟩
  | 2 => ⟨48, none, some [.plain (some 32), .sub 0]⟩
  | n + 3 => ⟨n + 100, none, none⟩

example : PartsBefore dosClasses ∧ OwnNames dosClasses ∧ PlainParts dosClasses ∧ SizeOf dosClasses 1 32 ∧
    run dosClasses start [.inst 0, .inst 1, .inst 2, .vector 0 3] =
      [.inst (.ok (some 16)), .inst (.ok (some 32)), .inst (.ok (some 48)), .vector (.ok 48)] := by
  refine ⟨?_, ?_, ?_, .mk 1 _ _ (.own 1 _ rfl) (.plain 15 _ _ (.plain 17 _ _ .nil)), by decide +kernel⟩
  · intro c
    match c with
    | 0 => simp [dosClasses]
    | 1 => simp [dosClasses]
    | 2 => simp [dosClasses]
    | n + 3 => simp [dosClasses]
  · intro a c h
    have hb : ∀ c b, (dosClasses c).base = some b → c = 1 ∧ b = 0 := by
      intro c b h
      match c with
      | 0 => cases h
      | 1 => cases h; exact ⟨rfl, rfl⟩
      | 2 => cases h
      | n + 3 => cases h
    cases h with
    | base _ h => obtain ⟨rfl, rfl⟩ := hb _ _ h; decide
    | step b _ h h' =>
      obtain ⟨rfl, rfl⟩ := hb _ _ h
      cases h' with
      | base _ h => exact absurd (hb _ _ h).1 (by decide)
      | step _ _ h => exact absurd (hb _ _ h).1 (by decide)
  · intro c items h d hd
    match c with
    | 0 => cases h; simp at hd
    | 1 => cases h; simp at hd
    | 2 => cases h; simp at hd; subst hd; rfl
    | n + 3 => cases h

/-- C82 (disagreement): a derived class that is part of a format is counted with the size of its
base class if there was an instance of that one, and right otherwise. -/
theorem C82_derived :
    ∃ T : Classes, PartsBefore T ∧ OwnNames T ∧ SizeOf T 2 33 ∧
      run T start [.inst 2] = [.inst (.ok (some 33))] ∧
      run T start [.inst 0, .inst 2] = [.inst (.ok (some 16)), .inst (.ok (some 17))] ∧
      run T start [.inst 0, .vector 1 2] = [.inst (.ok (some 16)), .vector (.ok 32)] := by
  let T : Classes := fun
    | 0 => ⟨16, none, some [.plain (some 16)]⟩
    | 1 => ⟨32, some 0, some [.plain (some 32)]⟩
    | 2 => ⟨48, none, some [.plain (some 1), .sub 1]⟩
    | n + 3 => ⟨n + 100, none, none⟩
  refine ⟨T, ?_, ?_, ?_, by decide +kernel, by decide +kernel, by decide +kernel⟩
  · intro c
    match c with
    | 0 => simp [T]
    | 1 => simp [T]
    | 2 => simp [T]
    | n + 3 => simp [T]
  · intro a c h
    have hb : ∀ c b, (T c).base = some b → c = 1 ∧ b = 0 := by
      intro c b h
      match c with
      | 0 => cases h
      | 1 => cases h; exact ⟨rfl, rfl⟩
      | 2 => cases h
      | n + 3 => cases h
    cases h with
    | base _ h => obtain ⟨rfl, rfl⟩ := hb _ _ h; decide
    | step b _ h h' =>
      obtain ⟨rfl, rfl⟩ := hb _ _ h
      cases h' with
      | base _ h => exact absurd (hb 0 _ h).1 (by decide)
      | step _ _ h => exact absurd (hb 0 _ h).1 (by decide)
  · exact .mk 2 _ _ (.own 2 _ rfl) (.plain 1 _ _ (.sub 1 32 _ _ (.mk 1 _ _ (.own 1 _ rfl) (.plain 32 _ _ .nil)) .nil))

/-- C82 (disagreement): a class with the name of its base class gets the size of the base class
if there was an instance of that one. -/
theorem C82_sameName :
    ∃ T : Classes, PartsBefore T ∧ PlainParts T ∧ SizeOf T 1 32 ∧
      run T start [.inst 0, .inst 1] = [.inst (.ok (some 16)), .inst (.ok (some 16))] := by
  let T : Classes := fun
    | 0 => ⟨7, none, some [.plain (some 16)]⟩
    | 1 => ⟨7, some 0, some [.plain (some 32)]⟩
    | n + 2 => ⟨n + 100, none, none⟩
  refine ⟨T, ?_, ?_, .mk 1 _ _ (.own 1 _ rfl) (.plain 32 _ _ .nil), by decide +kernel⟩
  · intro c
    match c with
    | 0 => simp [T]
    | 1 => simp [T]
    | n + 2 => simp [T]
  · intro c items h d hd
    match c with
    | 0 => cases h; simp at hd
    | 1 => cases h; simp at hd
    | n + 2 => cases h

end Hachoir.Props
