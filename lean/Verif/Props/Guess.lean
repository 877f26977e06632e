import Verif.Parser.Guess

/-!
# C39: parser guessing returns the first validating parser
-/

set_option linter.unusedVariables false

namespace Hachoir.Props
open Hachoir Hachoir.Parser

variable {P : Type}

/-! ## The parser list -/

/-- The values of the tags `name` of a parser that can be searched for. -/
def valuesOf (tags : Tags) (name : String) : List Val :=
  if name ∈ ["magic", "min_size", "description"] then []
  else tags.flatMap fun e => if e.1 = name then asTuple e.2 else []

theorem valueGet_addValue (b : List (Val × List P)) (v v' : Val) (p : P) :
    valueGet (addValue b v p) v' = valueGet b v' ++ if v = v' then [p] else [] := by
  induction b with
  | nil => by_cases h : v = v' <;> simp [addValue, valueGet, h]
  | cons e r ih =>
    obtain ⟨w, l⟩ := e
    unfold addValue
    by_cases h : w = v
    · rw [if_pos h]
      subst h
      by_cases h' : w = v' <;> simp [valueGet, h']
    · rw [if_neg h]
      by_cases h' : w = v'
      · have : ¬ v = v' := fun e => h (h'.trans e.symm)
        simp [valueGet, h', this]
      · simp only [valueGet, List.find?_cons, h', decide_false] at ih ⊢
        exact ih

theorem valueGet_fold (values : List Val) (b : List (Val × List P)) (v : Val) (p : P) :
    valueGet (values.foldl (fun b v => addValue b v p) b) v = valueGet b v ++ List.replicate (values.count v) p := by
  induction values generalizing b with
  | nil => simp
  | cons w r ih =>
    rw [List.foldl_cons, ih, valueGet_addValue, List.append_assoc]
    congr 1
    by_cases h : w = v
    · subst h
      rw [if_pos rfl, List.count_cons_self, List.replicate_succ]
      rfl
    · rw [if_neg h, List.count_cons_of_ne h]
      rfl

theorem mem_addValue (b : List (Val × List P)) (v : Val) (p q : P) :
    (∃ e ∈ addValue b v p, q ∈ e.2) ↔ (∃ e ∈ b, q ∈ e.2) ∨ q = p := by
  induction b with
  | nil => simp [addValue]
  | cons e r ih =>
    obtain ⟨w, l⟩ := e
    unfold addValue
    split
    · simp only [List.mem_cons, exists_eq_or_imp, List.mem_append, List.not_mem_nil, or_false]
      constructor
      · rintro ((h | h) | h)
        · exact .inl (.inl h)
        · exact .inr h
        · exact .inl (.inr h)
      · rintro ((h | h) | h)
        · exact .inl (.inl h)
        · exact .inr h
        · exact .inl (.inr h)
    · simp only [List.mem_cons, exists_eq_or_imp]
      rw [ih]
      exact or_assoc.symm

theorem mem_fold (values : List Val) (b : List (Val × List P)) (p q : P) :
    (∃ e ∈ values.foldl (fun b v => addValue b v p) b, q ∈ e.2) ↔ (∃ e ∈ b, q ∈ e.2) ∨ (values ≠ [] ∧ q = p) := by
  induction values generalizing b with
  | nil => simp
  | cons w r ih =>
    rw [List.foldl_cons, ih, mem_addValue]
    constructor
    · rintro ((h | h) | h)
      · exact .inl h
      · exact .inr ⟨by simp, h⟩
      · exact .inr ⟨by simp, h.2⟩
    · rintro (h | h)
      · exact .inl (.inl h)
      · exact .inl (.inr h.2)

/-- Lookup in `bytag`. -/
def lookupTag (bytag : List (String × List (Val × List P))) (name : String) : List (Val × List P) :=
  ((bytag.find? (fun p => p.1 = name)).map Prod.snd).getD []

theorem lookup_addTag (bytag : List (String × List (Val × List P))) (name name' : String) (values : List Val) (p : P) :
    lookupTag (addTag bytag name values p) name' =
      (if name = name' then values else []).foldl (fun b v => addValue b v p) (lookupTag bytag name') := by
  induction bytag with
  | nil => by_cases h : name = name' <;> simp [addTag, lookupTag, h]
  | cons e r ih =>
    obtain ⟨n, b⟩ := e
    unfold addTag
    by_cases h : n = name
    · rw [if_pos h]
      subst h
      by_cases h' : n = name' <;> simp [lookupTag, h']
    · rw [if_neg h]
      by_cases h' : n = name'
      · have : ¬ name = name' := fun e => h (h'.trans e.symm)
        simp [lookupTag, h', this]
      · simp only [lookupTag, List.find?_cons, h', decide_false] at ih ⊢
        exact ih

theorem lookup_fold (l : List (String × List Val)) (bytag : List (String × List (Val × List P))) (name : String) (p : P) :
    lookupTag (l.foldl (fun b nv => addTag b nv.1 nv.2 p) bytag) name =
      (l.flatMap fun e => if e.1 = name then e.2 else []).foldl (fun b v => addValue b v p) (lookupTag bytag name) := by
  induction l generalizing bytag with
  | nil => rfl
  | cons e r ih =>
    rw [List.foldl_cons, ih, lookup_addTag, List.flatMap_cons, List.foldl_append]

theorem translate_keep (db : ParserList P) (name : String) (value : TagValue) :
    (db.translate name value = .skip → name ∈ ["magic", "min_size", "description"]) ∧
    (∀ vs, db.translate name value = .keep vs → name ∉ ["magic", "min_size", "description"] ∧ vs = asTuple value ∧
      (name = "id" → ∀ v ∈ vs, valueGet (db.byname "id") v = [])) := by
  unfold ParserList.translate
  split
  · rename_i h; simp [h]
  split
  · rename_i h
    refine ⟨fun _ => by simp [h], fun vs hv => ?_⟩
    split at hv
    · split at hv <;> cases hv
    · cases hv
  split
  · rename_i h
    refine ⟨fun _ => by simp [h], fun vs hv => ?_⟩
    split at hv
    · split at hv <;> cases hv
    · cases hv
  rename_i h1 h2 h3
  have hn : name ∉ ["magic", "min_size", "description"] := by simp [h1, h2, h3]
  split
  · rename_i h4
    split
    · split
      · refine ⟨fun h => (by cases h), fun vs hv => ?_⟩
        cases hv
        exact ⟨hn, rfl, fun e => absurd (h4.symm.trans e) (by decide)⟩
      · exact ⟨fun h => (by cases h), fun vs hv => by cases hv⟩
    · exact ⟨fun h => (by cases h), fun vs hv => by cases hv⟩
  split
  · split
    · split
      · exact ⟨fun h => (by cases h), fun vs hv => by cases hv⟩
      split
      · exact ⟨fun h => (by cases h), fun vs hv => by cases hv⟩
      · rename_i s _ hg
        refine ⟨fun h => (by cases h), fun vs hv => ?_⟩
        cases hv
        refine ⟨hn, rfl, fun _ v hv => ?_⟩
        rw [List.mem_singleton] at hv
        subst hv
        exact Decidable.byContradiction hg
    · exact ⟨fun h => (by cases h), fun vs hv => by cases hv⟩
  · rename_i h4 h5
    refine ⟨fun h => (by cases h), fun vs hv => ?_⟩
    cases hv
    exact ⟨hn, rfl, fun e => absurd e h5⟩

theorem collect_spec (db : ParserList P) (tags : Tags) (l : List (String × List Val))
    (h : db.collect tags = .ok (some l)) :
    (∀ name, (l.flatMap fun e => if e.1 = name then e.2 else []) = valuesOf tags name) ∧
    (∀ v ∈ valuesOf tags "id", valueGet (db.byname "id") v = []) := by
  induction tags generalizing l with
  | nil =>
    cases h
    refine ⟨fun name => ?_, fun v hv => by simp [valuesOf] at hv⟩
    unfold valuesOf
    split <;> rfl
  | cons e r ih =>
    obtain ⟨name, value⟩ := e
    unfold ParserList.collect at h
    obtain ⟨t1, t2⟩ := translate_keep db name value
    cases ht : db.translate name value with
    | error => rw [ht] at h; cases h
    | typeError => rw [ht] at h; cases h
    | skip =>
      rw [ht] at h
      obtain ⟨e1, e2⟩ := ih l h
      have hn := t1 ht
      have hv : ∀ name', valuesOf ((name, value) :: r) name' = valuesOf r name' := by
        intro name'
        unfold valuesOf
        split
        · rfl
        · rename_i hx
          have : name ≠ name' := fun e => hx (e ▸ hn)
          simp [this]
      exact ⟨fun name' => by rw [hv, e1], fun v hm => e2 v (by rwa [hv] at hm)⟩
    | keep vs =>
      rw [ht] at h
      obtain ⟨hn, rfl, hid⟩ := t2 vs ht
      simp only at h
      cases hc : db.collect r with
      | error e => rw [hc] at h; cases h
      | ok o =>
        cases o with
        | none => rw [hc] at h; cases h
        | some l' =>
          rw [hc] at h
          cases h
          obtain ⟨e1, e2⟩ := ih l' hc
          have hv : ∀ name', valuesOf ((name, value) :: r) name' =
              (if name = name' then asTuple value else []) ++ valuesOf r name' := by
            intro name'
            unfold valuesOf
            split
            · rename_i hx
              have : name ≠ name' := fun e => hn (e ▸ hx)
              simp [this]
            · rw [List.flatMap_cons]
          refine ⟨fun name' => ?_, fun v hm => ?_⟩
          · rw [hv, List.flatMap_cons, e1]
          · rw [hv, List.mem_append] at hm
            rcases hm with hm | hm
            · split at hm
              · rename_i hx; exact hid hx v hm
              · cases hm
            · exact e2 v hm

/-- What the dictionaries of the list are to hold. -/
structure Registered (tags : P → Tags) (db : ParserList P) : Prop where
  /-- a lookup gives the parsers with that value, in the order they were added -/
  lookup : ∀ name v, valueGet (db.byname name) v =
    db.parsers.flatMap (fun p => List.replicate ((valuesOf (tags p) name).count v) p)
  /-- all values together give the parsers that have the tag -/
  all : ∀ name q, (∃ e ∈ db.byname name, q ∈ e.2) ↔ q ∈ db.parsers ∧ valuesOf (tags q) name ≠ []
  /-- identifiers -/
  ids : db.parsers.Pairwise fun p q => ∀ v ∈ valuesOf (tags p) "id", v ∉ valuesOf (tags q) "id"
  hasId : ∀ p ∈ db.parsers, valuesOf (tags p) "id" ≠ []

theorem add_registered (tags : P → Tags) (db db' : ParserList P) (p : P) (hr : Registered tags db)
    (h : db.add (tags p) p = .ok db') : Registered tags db' ∧ (db' = db ∨ db'.parsers = db.parsers ++ [p]) := by
  unfold ParserList.add at h
  split at h
  · cases h; exact ⟨hr, .inl rfl⟩
  rename_i hvp
  cases hc : db.collect (tags p) with
  | error e => rw [hc] at h; cases h
  | ok o =>
    rw [hc] at h
    cases o with
    | none => cases h; exact ⟨hr, .inl rfl⟩
    | some l =>
      simp only at h
      cases h
      obtain ⟨e1, e2⟩ := collect_spec db (tags p) l hc
      have hby : ∀ name, (ParserList.mk (db.parsers ++ [p]) (l.foldl (fun b nv => addTag b nv.1 nv.2 p) db.bytag)).byname name =
          (valuesOf (tags p) name).foldl (fun b v => addValue b v p) (db.byname name) := by
        intro name
        have := lookup_fold l db.bytag name p
        rw [e1] at this
        exact this
      refine ⟨⟨?_, ?_, ?_, ?_⟩, .inr rfl⟩
      · intro name v
        rw [hby, valueGet_fold, hr.lookup]
        simp
      · intro name q
        rw [hby, mem_fold, hr.all]
        simp only [List.mem_append, List.mem_singleton]
        constructor
        · rintro (⟨h1, h2⟩ | ⟨h1, h2⟩)
          · exact ⟨.inl h1, h2⟩
          · subst h2; exact ⟨.inr rfl, h1⟩
        · rintro ⟨h1 | h1, h2⟩
          · exact .inl ⟨h1, h2⟩
          · subst h1; exact .inr ⟨h2, rfl⟩
      · rw [List.pairwise_append]
        refine ⟨hr.ids, List.pairwise_singleton _ _, ?_⟩
        intro q hq p' hp v hv hv'
        rw [List.mem_singleton] at hp
        subst hp
        have := e2 v hv'
        rw [hr.lookup, List.flatMap_eq_nil_iff] at this
        have h0 := this q hq
        rw [List.replicate_eq_nil_iff, List.count_eq_zero] at h0
        exact h0 hv
      · intro q hq
        rcases List.mem_append.mp hq with hq | hq
        · exact hr.hasId q hq
        · rw [List.mem_singleton] at hq
          subst hq
          -- the tag "id" is there and was accepted
          have hid : ((tags q).get "id").isSome = true := by
            unfold validParser at hvp
            cases hi : ((tags q).get "id").isSome with
            | true => rfl
            | false => simp [hi] at hvp
          have hsome : ∃ val, ("id", val) ∈ tags q := by
            unfold Tags.get at hid
            rw [Option.isSome_map] at hid
            obtain ⟨x, hx⟩ := Option.isSome_iff_exists.mp hid
            have h1 := List.mem_of_find?_eq_some hx
            have h2 := List.find?_some hx
            obtain ⟨n, val⟩ := x
            simp only [decide_eq_true_eq] at h2
            subst h2
            exact ⟨val, h1⟩
          obtain ⟨val, hval⟩ := hsome
          -- its value is one text
          have hone : ∀ (ts : Tags) (l : List (String × List Val)), db.collect ts = .ok (some l) →
              ("id", val) ∈ ts → asTuple val ≠ [] := by
            intro ts
            induction ts with
            | nil => intro l _ hm; cases hm
            | cons e r ih =>
              intro l hl hm
              obtain ⟨n, w⟩ := e
              unfold ParserList.collect at hl
              rcases List.mem_cons.mp hm with he | hm
              · cases he
                cases val with
                | one v => simp [asTuple]
                | tuple x => simp [ParserList.translate] at hl
                | list x => simp [ParserList.translate] at hl
              · cases ht : db.translate n w with
                | error => rw [ht] at hl; cases hl
                | typeError => rw [ht] at hl; cases hl
                | skip => rw [ht] at hl; exact ih l hl hm
                | keep vs =>
                  rw [ht] at hl
                  simp only at hl
                  cases hc' : db.collect r with
                  | error e => rw [hc'] at hl; cases hl
                  | ok o =>
                    cases o with
                    | none => rw [hc'] at hl; cases hl
                    | some l' => exact ih l' hc' hm
          have hne := hone _ _ hc hval
          intro hnil
          have hx : "id" ∉ ["magic", "min_size", "description"] := by decide
          unfold valuesOf at hnil
          rw [if_neg hx, List.flatMap_eq_nil_iff] at hnil
          have := hnil _ hval
          simp at this
          exact hne this

/-- Whatever is loaded, looking up a value of a tag gives the loaded parsers that have it, in the
order of loading, and no identifier is used twice. -/
theorem C39_registry (tags : P → Tags) (classes : List P) (db : ParserList P)
    (h : (ParserList.new P).load tags classes = .ok db) :
    Registered tags db ∧ db.parsers.Nodup ∧ db.parsers.Sublist classes := by
  have hnew : Registered tags (ParserList.new P) := by
    have hb : ∀ name, (ParserList.new P).byname name = [] := by
      intro name
      unfold ParserList.byname ParserList.new
      by_cases h1 : "id" = name
      · simp [h1]
      · by_cases h2 : "category" = name <;> simp [h1, h2]
    refine ⟨fun name v => ?_, fun name q => ?_, List.Pairwise.nil, fun p hp => by cases hp⟩
    · rw [hb]; rfl
    · rw [hb]; simp [ParserList.new]
  have hmain : ∀ (classes : List P) (db0 db : ParserList P), Registered tags db0 → db0.load tags classes = .ok db →
      Registered tags db ∧ ∃ s, s.Sublist classes ∧ db.parsers = db0.parsers ++ s := by
    intro classes
    induction classes with
    | nil => intro db0 db hr h; cases h; exact ⟨hr, [], List.Sublist.slnil, by simp⟩
    | cons p r ih =>
      intro db0 db hr h
      unfold ParserList.load at h
      cases ha : db0.add (tags p) p with
      | error e => rw [ha] at h; cases h
      | ok db1 =>
        rw [ha] at h
        obtain ⟨hr1, hcase⟩ := add_registered tags db0 db1 p hr ha
        obtain ⟨hr2, s, hs, he⟩ := ih db1 db hr1 h
        refine ⟨hr2, ?_⟩
        rcases hcase with rfl | hc
        · exact ⟨s, hs.cons _, he⟩
        · exact ⟨p :: s, hs.cons_cons _, by rw [he, hc]; simp⟩
  obtain ⟨h1, s, h2, h3⟩ := hmain classes _ db hnew h
  refine ⟨h1, ?_, ?_⟩
  · refine List.Pairwise.imp_of_mem ?_ h1.ids
    intro p q hp hq hpq e
    subst e
    cases hv : valuesOf (tags p) "id" with
    | nil => exact h1.hasId p hp hv
    | cons v r => exact hpq v (by rw [hv]; simp) (by rw [hv]; simp)
  · rw [h3]
    simpa [ParserList.new] using h2

/-! ## The candidates -/

variable [DecidableEq P]

/-- The extension searched for when a file name is given: what is behind the last dot of the
last component, in lower case; the empty text if there is no dot. -/
inductive IsExtension (env : GuessEnv P) : List Char → List Char → Prop
  | dot (dir stem ext : List Char) : (dir = [] ∨ dir.getLast? = some '/') → '/' ∉ stem ++ '.' :: ext → '.' ∉ ext →
      IsExtension env (dir ++ (stem ++ '.' :: ext)) (env.lower ext)
  | none (dir base : List Char) : (dir = [] ∨ dir.getLast? = some '/') → '/' ∉ base → '.' ∉ base →
      IsExtension env (dir ++ base) []

theorem takeWhile_stop {α : Type} (f : α → Bool) (a b : List α) (ha : ∀ x ∈ a, f x = true)
    (hb : ∀ x, b.head? = some x → f x = false) : (a ++ b).takeWhile f = a := by
  induction a with
  | nil =>
    cases b with
    | nil => rfl
    | cons y b => simp [hb y rfl]
  | cons y a ih =>
    rw [List.cons_append, List.takeWhile_cons, ha y (by simp)]
    simp [ih (fun x hx => ha x (by simp [hx]))]

theorem basename_eq (dir base : List Char) (h1 : dir = [] ∨ dir.getLast? = some '/') (h2 : '/' ∉ base) :
    basename (dir ++ base) = base := by
  unfold basename
  rw [List.reverse_append, takeWhile_stop, List.reverse_reverse]
  · intro x hx
    rw [List.mem_reverse] at hx
    have : x ≠ '/' := fun e => h2 (e ▸ hx)
    simp [this]
  · intro x hx
    rw [List.head?_reverse] at hx
    rcases h1 with rfl | h1
    · cases hx
    · rw [h1] at hx; cases hx; rfl

omit [DecidableEq P] in
/-- A file name is searched by its extension. -/
theorem C39_filename (env : GuessEnv P) (path ext : List Char) (h : IsExtension env path ext) :
    translate env "filename" (some (.str path)) = .ok ("file_ext", some (.str ext)) := by
  cases h with
  | dot dir stem ext hd hs he =>
    have hb := basename_eq dir _ hd hs
    unfold translate
    simp only [if_true, hb]
    rw [if_pos (by simp)]
    have : ((stem ++ '.' :: ext).reverse.takeWhile (· ≠ '.')).reverse = ext := by
      rw [List.reverse_append, List.reverse_cons, List.append_assoc, takeWhile_stop, List.reverse_reverse]
      · intro x hx
        rw [List.mem_reverse] at hx
        have : x ≠ '.' := fun e => he (e ▸ hx)
        simp [this]
      · intro x hx
        simp at hx
        simp [← hx]
    rw [this]
  | none dir base hd hs he =>
    have hb := basename_eq dir _ hd hs
    unfold translate
    simp only [if_true, hb]
    rw [if_neg he]

/-- Does a tag select a parser?  A file name stands for its extension. -/
def selects (env : GuessEnv P) (tags : P → Tags) : Tag P → P → Bool
  | .call f, p => f p
  | .named name value, p =>
    match translate env name value with
    | .ok (key, some v) => decide (v ∈ valuesOf (tags p) key)
    | .ok (key, none) => decide (valuesOf (tags p) key ≠ [])
    | .error _ => false
  | _, _ => false

/-- Parsers that later tags do not see any more. -/
def takes (env : GuessEnv P) (tags : P → Tags) : Tag P → P → Bool
  | .stop, _ => true
  | t, p => selects env tags t p

/-- The candidates a tag adds, when the parsers of `R` are left. -/
def Group (env : GuessEnv P) (tags : P → Tags) (registered : List P) (R : P → Prop) : Tag P → List P → Prop
  | .cls p, g => g = [p]
  | .stop, g => g = []
  | .args, g => g = []
  | .call f, g => g.Nodup ∧ ∀ p, p ∈ g ↔ R p ∧ f p = true
  | .named name value, g => g.Nodup ∧ (∀ p, p ∈ g ↔ R p ∧ selects env tags (.named name value) p = true) ∧
      (value ≠ none → g.Sublist registered)

/-- The candidates for a list of tags, when the parsers of `R` are left: those of the first tag
(as long as any are left), then those of the other tags, then all others. -/
def Candidates (env : GuessEnv P) (tags : P → Tags) (registered : List P) : (P → Prop) → List (Tag P) → List P → Prop
  | R, [], l => l.Nodup ∧ ∀ p, p ∈ l ↔ R p
  | R, t :: ts, l => (¬ (∃ p, R p) ∧ l = []) ∨
      ((∃ p, R p) ∧ ∃ g rest, l = g ++ rest ∧ Group env tags registered R t g ∧
        Candidates env tags registered (fun p => R p ∧ takes env tags t p = false) ts rest)

theorem takeFrom_spec (left l : List P) (hn : left.Nodup) :
    (takeFrom left l).1.Nodup ∧ (∀ p, p ∈ (takeFrom left l).1 ↔ p ∈ left ∧ p ∈ l) ∧
    (takeFrom left l).2.Nodup ∧ (∀ p, p ∈ (takeFrom left l).2 ↔ p ∈ left ∧ p ∉ l) := by
  induction l generalizing left with
  | nil => exact ⟨List.nodup_nil, by simp [takeFrom], hn, by simp [takeFrom]⟩
  | cons q r ih =>
    unfold takeFrom
    by_cases h : q ∈ left
    · rw [if_pos h]
      obtain ⟨h1, h2, h3, h4⟩ := ih (left.erase q) (hn.erase q)
      have he : ∀ p, p ∈ left.erase q ↔ p ≠ q ∧ p ∈ left := fun p => hn.mem_erase_iff
      refine ⟨?_, ?_, h3, ?_⟩
      · rw [List.nodup_cons]
        exact ⟨fun hq => ((he q).mp ((h2 q).mp hq).1).1 rfl, h1⟩
      · intro p
        simp only [List.mem_cons]
        rw [h2, he]
        constructor
        · rintro (rfl | ⟨⟨h5, h6⟩, h7⟩)
          · exact ⟨h, .inl rfl⟩
          · exact ⟨h6, .inr h7⟩
        · rintro ⟨h5, h6 | h6⟩
          · exact .inl h6
          · by_cases h7 : p = q
            · exact .inl h7
            · exact .inr ⟨⟨h7, h5⟩, h6⟩
      · intro p
        simp only [List.mem_cons, not_or]
        rw [h4, he]
        constructor
        · rintro ⟨⟨h5, h6⟩, h7⟩; exact ⟨h6, h5, h7⟩
        · rintro ⟨h5, h6, h7⟩; exact ⟨⟨h6, h5⟩, h7⟩
    · rw [if_neg h]
      obtain ⟨h1, h2, h3, h4⟩ := ih left hn
      refine ⟨h1, ?_, h3, ?_⟩
      · intro p
        rw [h2, List.mem_cons]
        constructor
        · rintro ⟨h5, h6⟩; exact ⟨h5, .inr h6⟩
        · rintro ⟨h5, h6 | h6⟩
          · exact absurd (h6 ▸ h5) h
          · exact ⟨h5, h6⟩
      · intro p
        rw [h4, List.mem_cons, not_or]
        constructor
        · rintro ⟨h5, h6⟩; exact ⟨h5, fun e => h (e ▸ h5), h6⟩
        · rintro ⟨h5, h6, h7⟩; exact ⟨h5, h7⟩

theorem takeFrom_replicate (left : List P) (p : P) (k : Nat) (r : List P) (h : p ∉ left) :
    takeFrom left (List.replicate k p ++ r) = takeFrom left r := by
  induction k with
  | zero => rfl
  | succ k ih =>
    rw [List.replicate_succ, List.cons_append, takeFrom.eq_def]
    simp only
    rw [if_neg h]
    exact ih

theorem takeFrom_order (c : P → Nat) (registered left : List P) (hr : registered.Nodup) (hn : left.Nodup) :
    (takeFrom left (registered.flatMap fun p => List.replicate (c p) p)).1.Sublist registered := by
  induction registered generalizing left with
  | nil => exact List.Sublist.slnil
  | cons p r ih =>
    rw [List.nodup_cons] at hr
    rw [List.flatMap_cons]
    by_cases h : p ∈ left
    · cases hc : c p with
      | zero => exact (ih left hr.2 hn).cons _
      | succ k =>
        rw [List.replicate_succ, List.cons_append, takeFrom.eq_def]
        simp only
        rw [if_pos h]
        simp only
        rw [takeFrom_replicate _ _ _ _ (fun e => (hn.mem_erase_iff.mp e).1 rfl)]
        exact (ih _ hr.2 (hn.erase p)).cons_cons _
    · rw [takeFrom_replicate _ _ _ _ h]
      exact (ih left hr.2 hn).cons _

theorem foldl_erase (l left : List P) (hn : left.Nodup) :
    (l.foldl List.erase left).Nodup ∧ ∀ p, p ∈ l.foldl List.erase left ↔ p ∈ left ∧ p ∉ l := by
  induction l generalizing left with
  | nil => exact ⟨hn, by simp⟩
  | cons q r ih =>
    rw [List.foldl_cons]
    obtain ⟨h1, h2⟩ := ih (left.erase q) (hn.erase q)
    refine ⟨h1, fun p => ?_⟩
    rw [h2, hn.mem_erase_iff, List.mem_cons, not_or]
    constructor
    · rintro ⟨⟨h5, h6⟩, h7⟩; exact ⟨h6, h5, h7⟩
    · rintro ⟨h5, h6, h7⟩; exact ⟨⟨h6, h5⟩, h7⟩

/-- The parsers listed for a tag. -/
def listed (db : ParserList P) (key : String) (v : Option Val) : List P :=
  List.flatten (match v with
    | none => (db.byname key).map Prod.snd
    | some v => [valueGet (db.byname key) v])

theorem getByTag_spec (env : GuessEnv P) (ho : ∀ l, (env.order l).Perm l) (tags : P → Tags) (db : ParserList P)
    (hr : Registered tags db) (hd : db.parsers.Nodup) (left : List P) (hl : ∀ p ∈ left, p ∈ db.parsers)
    (hn : left.Nodup) (validate : Bool) (t : Tag P)
    (more left' : List P) (validate' : Bool) (h : getByTag env db left validate t = .ok (more, left', validate')) :
    Group env tags db.parsers (· ∈ left) t more ∧ left'.Nodup ∧
    (∀ p, p ∈ left' ↔ p ∈ left ∧ takes env tags t p = false) := by
  cases t with
  | stop =>
    cases h
    exact ⟨rfl, List.nodup_nil, by simp [takes]⟩
  | args =>
    cases h
    exact ⟨rfl, hn, by simp [takes, selects]⟩
  | cls p =>
    cases h
    exact ⟨rfl, hn, by simp [takes, selects]⟩
  | call f =>
    cases h
    have hp := ho left
    have hm : ∀ p, p ∈ (env.order left).filter f ↔ p ∈ left ∧ f p = true := by
      intro p
      rw [List.mem_filter, hp.mem_iff]
    obtain ⟨h1, h2⟩ := foldl_erase ((env.order left).filter f) left hn
    refine ⟨⟨(hp.nodup_iff.mpr hn).filter _, hm⟩, h1, fun p => ?_⟩
    rw [h2, hm]
    simp only [takes, selects]
    cases hf : f p <;> simp
  | named name value =>
    unfold getByTag at h
    simp only at h
    cases ht : translate env name value with
    | error e => rw [ht] at h; cases h
    | ok kv =>
      obtain ⟨key, v⟩ := kv
      rw [ht] at h
      cases h
      have hmem : ∀ p, p ∈ db.parsers → (p ∈ listed db key v ↔ selects env tags (.named name value) p = true) := by
        intro p hp
        simp only [selects, ht, listed]
        cases v with
        | none =>
          have := hr.all key p
          rw [decide_eq_true_eq]
          simp only [List.mem_flatten, List.mem_map]
          constructor
          · rintro ⟨l, ⟨e, h1, rfl⟩, h2⟩
            exact (this.mp ⟨e, h1, h2⟩).2
          · intro h2
            obtain ⟨e, h3, h4⟩ := this.mpr ⟨hp, h2⟩
            exact ⟨_, ⟨e, h3, rfl⟩, h4⟩
        | some v =>
          rw [decide_eq_true_eq]
          simp only [List.flatten_cons, List.flatten_nil, List.append_nil]
          rw [hr.lookup, List.mem_flatMap]
          constructor
          · rintro ⟨q, h1, h2⟩
            rw [List.mem_replicate] at h2
            obtain ⟨h3, rfl⟩ := h2
            exact List.count_pos_iff.mp (Nat.pos_of_ne_zero h3)
          · intro h2
            exact ⟨p, hp, List.mem_replicate.mpr ⟨Nat.ne_of_gt (List.count_pos_iff.mpr h2), rfl⟩⟩
      obtain ⟨h1, h2, h3, h4⟩ := takeFrom_spec left (listed db key v) hn
      refine ⟨⟨h1, fun p => ?_, fun hv => ?_⟩, h3, fun p => ?_⟩
      · refine (h2 p).trans ?_
        constructor
        · rintro ⟨h5, h6⟩; exact ⟨h5, (hmem p (hl p h5)).mp h6⟩
        · rintro ⟨h5, h6⟩; exact ⟨h5, (hmem p (hl p h5)).mpr h6⟩
      · cases v with
        | none =>
          exfalso
          unfold translate at ht
          split at ht
          · split at ht
            · simp only at ht
              split at ht <;> cases ht
            · cases ht
          · cases ht; exact hv rfl
        | some v =>
          simp only [List.flatten_cons, List.flatten_nil, List.append_nil]
          rw [hr.lookup]
          exact takeFrom_order _ _ _ hd hn
      · refine (h4 p).trans ?_
        show _ ↔ _ ∧ selects env tags (.named name value) p = false
        constructor
        · rintro ⟨h5, h6⟩
          exact ⟨h5, by rw [Bool.eq_false_iff]; exact fun e => h6 ((hmem p (hl p h5)).mpr e)⟩
        · rintro ⟨h5, h6⟩
          refine ⟨h5, fun e => ?_⟩
          rw [(hmem p (hl p h5)).mp e] at h6
          cases h6

omit [DecidableEq P] in
theorem Candidates_congr (env : GuessEnv P) (tags : P → Tags) (registered : List P) (R R' : P → Prop)
    (h : ∀ p, R p ↔ R' p) (ts : List (Tag P)) (l : List P) :
    Candidates env tags registered R ts l → Candidates env tags registered R' ts l := by
  have : R = R' := funext fun p => propext (h p)
  subst this
  exact id

theorem queryLoop_spec (env : GuessEnv P) (ho : ∀ l, (env.order l).Perm l) (tags : P → Tags) (db : ParserList P)
    (hr : Registered tags db) (hd : db.parsers.Nodup) (ts : List (Tag P)) :
    ∀ (left : List P) (validate : Bool) (parsers : List P) (fallback : Option Bool), (∀ p ∈ left, p ∈ db.parsers) →
    left.Nodup → ∀ parsers' left' validate' fallback',
    queryLoop env db left validate parsers fallback ts = .ok (parsers', left', validate', fallback') →
    left'.Nodup ∧ ∃ l, parsers' = parsers ++ l ∧ ∀ rest, rest.Perm left' →
      Candidates env tags db.parsers (· ∈ left) ts (l ++ rest) := by
  induction ts with
  | nil =>
    intro left validate parsers fallback hl hn parsers' left' validate' fallback' h
    cases h
    refine ⟨hn, [], by simp, fun rest hp => ⟨by simpa using hp.nodup_iff.mpr hn, fun p => ?_⟩⟩
    rw [List.nil_append, hp.mem_iff]
  | cons t ts ih =>
    intro left validate parsers fallback hl hn parsers' left' validate' fallback' h
    unfold queryLoop at h
    by_cases hnil : left = []
    · rw [if_pos hnil] at h
      cases h
      subst hnil
      refine ⟨List.nodup_nil, [], by simp, fun rest hp => .inl ⟨by simp, ?_⟩⟩
      simpa using hp.eq_nil
    · rw [if_neg hnil] at h
      cases hg : getByTag env db left validate t with
      | error e => rw [hg] at h; cases h
      | ok x =>
        obtain ⟨more, left1, validate1⟩ := x
        rw [hg] at h
        simp only at h
        obtain ⟨g1, g2, g3⟩ := getByTag_spec env ho tags db hr hd left hl hn validate t more left1 validate1 hg
        obtain ⟨i1, l, i2, i3⟩ := ih left1 validate1 _ _ (fun p hp => hl p ((g3 p).mp hp).1) g2 _ _ _ _ h
        refine ⟨i1, more ++ l, by rw [i2, List.append_assoc], fun rest hp => .inr ⟨?_, more, l ++ rest, by simp, g1, ?_⟩⟩
        · cases left with
          | nil => exact absurd rfl hnil
          | cons p r => exact ⟨p, by simp⟩
        · exact Candidates_congr _ _ _ _ _ g3 _ _ (i3 rest hp)

/-- The candidates are those of the first tag, then those of the next ones that are left, then all
other parsers (unless there is a `None`); a class that is asked for is put in its place as long as
any parser is left. -/
theorem C39_candidates (env : GuessEnv P) (ho : ∀ l, (env.order l).Perm l) (tags : P → Tags) (classes : List P)
    (db : ParserList P) (hload : (ParserList.new P).load tags classes = .ok db) (ts : List (Tag P)) (q : Query P)
    (h : Query.new env db ts = .ok q) :
    Candidates env tags db.parsers (· ∈ db.parsers) ts q.parsers := by
  obtain ⟨hr, hd, -⟩ := C39_registry tags classes db hload
  unfold Query.new at h
  rw [List.Nodup.dedup hd] at h
  cases hq : queryLoop env db db.parsers true [] none ts with
  | error e => rw [hq] at h; cases h
  | ok x =>
    obtain ⟨parsers, left, validate, fallback⟩ := x
    rw [hq] at h
    obtain ⟨h1, l, h2, h3⟩ := queryLoop_spec env ho tags db hr hd ts db.parsers true [] none (fun p hp => hp) hd _ _ _ _ hq
    simp only at h
    rw [List.nil_append] at h2
    subst h2
    split at h
    · cases h
      exact h3 _ (ho left)
    · rename_i hl
      have hl : left = [] := Decidable.byContradiction hl
      cases h
      have := h3 [] (by rw [hl])
      simpa using this

/-- Without "class" no parser is tried twice. -/
theorem C39_once (env : GuessEnv P) (ho : ∀ l, (env.order l).Perm l) (tags : P → Tags) (classes : List P)
    (db : ParserList P) (hload : (ParserList.new P).load tags classes = .ok db) (ts : List (Tag P)) (q : Query P)
    (h : Query.new env db ts = .ok q) (hc : ∀ p, Tag.cls p ∉ ts) : q.parsers.Nodup ∧ ∀ p ∈ q.parsers, p ∈ db.parsers := by
  suffices H : ∀ (ts : List (Tag P)) (R : P → Prop) (l : List P), Candidates env tags db.parsers R ts l →
      (∀ p, Tag.cls p ∉ ts) → l.Nodup ∧ ∀ p ∈ l, R p from
    H ts _ _ (C39_candidates env ho tags classes db hload ts q h) hc
  intro ts
  induction ts with
  | nil => intro R l hl _; exact ⟨hl.1, fun p => (hl.2 p).mp⟩
  | cons t ts ih =>
    intro R l hl hc
    rcases hl with ⟨-, rfl⟩ | ⟨-, g, rest, rfl, hg, hrest⟩
    · simp
    · obtain ⟨h1, h2⟩ := ih _ _ hrest (fun p hp => hc p (List.mem_cons_of_mem _ hp))
      have hg' : g.Nodup ∧ ∀ p ∈ g, R p ∧ takes env tags t p = true := by
        cases t with
        | cls p => exact absurd (List.mem_cons_self ..) (hc p)
        | stop => rw [show g = [] from hg]; simp
        | args => rw [show g = [] from hg]; simp
        | call f => exact ⟨hg.1, fun p hp => (hg.2 p).mp hp⟩
        | named n v => exact ⟨hg.1, fun p hp => (hg.2.1 p).mp hp⟩
      refine ⟨?_, fun p hp => ?_⟩
      · rw [List.nodup_append]
        refine ⟨hg'.1, h1, ?_⟩
        intro a ha b hb e
        subst e
        have := (h2 a hb).2
        rw [(hg'.2 a ha).2] at this
        cases this
      · rcases List.mem_append.mp hp with hp | hp
        · exact (hg'.2 p hp).1
        · exact (h2 p hp).1

/-- Without `None` every parser of the list is a candidate. -/
theorem C39_complete (env : GuessEnv P) (ho : ∀ l, (env.order l).Perm l) (tags : P → Tags) (classes : List P)
    (db : ParserList P) (hload : (ParserList.new P).load tags classes = .ok db) (ts : List (Tag P)) (q : Query P)
    (h : Query.new env db ts = .ok q) (hs : Tag.stop ∉ ts) : ∀ p ∈ db.parsers, p ∈ q.parsers := by
  suffices H : ∀ (ts : List (Tag P)) (R : P → Prop) (l : List P), Candidates env tags db.parsers R ts l →
      Tag.stop ∉ ts → ∀ p, R p → p ∈ l from
    H ts _ _ (C39_candidates env ho tags classes db hload ts q h) hs
  intro ts
  induction ts with
  | nil => intro R l hl _ p hp; exact (hl.2 p).mpr hp
  | cons t ts ih =>
    intro R l hl hs p hp
    rcases hl with ⟨hno, rfl⟩ | ⟨-, g, rest, rfl, hg, hrest⟩
    · exact absurd ⟨p, hp⟩ hno
    · rw [List.mem_append]
      cases ht : takes env tags t p with
      | false => exact .inr (ih _ _ hrest (fun e => hs (List.mem_cons_of_mem _ e)) p ⟨hp, ht⟩)
      | true =>
        left
        cases t with
        | cls c => cases ht
        | stop => exact absurd (List.mem_cons_self ..) hs
        | args => cases ht
        | call f => exact (hg.2 p).mpr ⟨hp, ht⟩
        | named n v => exact (hg.2.1 p).mpr ⟨hp, ht⟩

/-- With a `None` behind the tags, only what is selected by a tag is a candidate. -/
theorem C39_restricted (env : GuessEnv P) (ho : ∀ l, (env.order l).Perm l) (tags : P → Tags) (classes : List P)
    (db : ParserList P) (hload : (ParserList.new P).load tags classes = .ok db) (ts : List (Tag P)) (q : Query P)
    (h : Query.new env db (ts ++ [.stop]) = .ok q) :
    ∀ p ∈ q.parsers, Tag.cls p ∈ ts ∨ ∃ t ∈ ts, selects env tags t p = true := by
  suffices H : ∀ (ts : List (Tag P)) (R : P → Prop) (l : List P),
      Candidates env tags db.parsers R (ts ++ [.stop]) l →
      ∀ p ∈ l, Tag.cls p ∈ ts ∨ ∃ t ∈ ts, selects env tags t p = true from
    H ts _ _ (C39_candidates env ho tags classes db hload _ q h)
  intro ts
  induction ts with
  | nil =>
    intro R l hl p hp
    rcases hl with ⟨hno, rfl⟩ | ⟨-, g, rest, rfl, hg, hrest⟩
    · cases hp
    · rcases List.mem_append.mp hp with hp | hp
      · rw [show g = [] from hg] at hp; cases hp
      · have := ((hrest.2 p).mp hp).2
        cases this
  | cons t ts ih =>
    intro R l hl p hp
    rcases hl with ⟨hno, rfl⟩ | ⟨-, g, rest, rfl, hg, hrest⟩
    · cases hp
    · rcases List.mem_append.mp hp with hp | hp
      · cases t with
        | cls c => rw [show g = [c] from hg, List.mem_singleton] at hp; subst hp; exact .inl (List.mem_cons_self ..)
        | stop => rw [show g = [] from hg] at hp; cases hp
        | args => rw [show g = [] from hg] at hp; cases hp
        | call f => exact .inr ⟨_, List.mem_cons_self .., ((hg.2 p).mp hp).2⟩
        | named n v => exact .inr ⟨_, List.mem_cons_self .., ((hg.2.1 p).mp hp).2⟩
      · rcases ih _ _ hrest p hp with h1 | ⟨t', h1, h2⟩
        · exact .inl (List.mem_cons_of_mem _ h1)
        · exact .inr ⟨t', List.mem_cons_of_mem _ h1, h2⟩

/-- A parser selected by a tag is tried before those that are selected by later tags only, or by
none. -/
theorem C39_order (env : GuessEnv P) (ho : ∀ l, (env.order l).Perm l) (tags : P → Tags) (classes : List P)
    (db : ParserList P) (hload : (ParserList.new P).load tags classes = .ok db) (ts later : List (Tag P)) (t : Tag P)
    (q : Query P) (h : Query.new env db (ts ++ t :: later) = .ok q) (a b : P) (ha : a ∈ db.parsers)
    (hsel : selects env tags t a = true) (hstop : Tag.stop ∉ ts) (hb : ∀ u ∈ ts ++ [t], selects env tags u b = false)
    (hcls : Tag.cls b ∉ ts) (hbq : b ∈ q.parsers) : [a, b].Sublist q.parsers := by
  suffices H : ∀ (ts : List (Tag P)) (R : P → Prop) (l : List P),
      Candidates env tags db.parsers R (ts ++ t :: later) l → R a → Tag.stop ∉ ts →
      (∀ u ∈ ts ++ [t], selects env tags u b = false) → Tag.cls b ∉ ts → b ∈ l → [a, b].Sublist l from
    H ts _ _ (C39_candidates env ho tags classes db hload _ q h) ha hstop hb hcls hbq
  have htne : t ≠ .stop := by rintro rfl; cases hsel
  have htake : ∀ (u : Tag P) p, u ≠ .stop → takes env tags u p = selects env tags u p := by
    intro u p hu
    cases u with
    | stop => exact absurd rfl hu
    | _ => rfl
  intro ts
  induction ts with
  | nil =>
    intro R l hl hRa _ hb _ hbl
    rcases hl with ⟨hno, rfl⟩ | ⟨-, g, rest, rfl, hg, hrest⟩
    · cases hbl
    · have hag : a ∈ g := by
        cases t with
        | cls c => cases hsel
        | stop => cases hsel
        | args => cases hsel
        | call f => exact (hg.2 a).mpr ⟨hRa, hsel⟩
        | named n v => exact (hg.2.1 a).mpr ⟨hRa, hsel⟩
      have hbt := hb t (by simp)
      have hbg : b ∉ g := by
        intro hbg
        cases t with
        | cls c => cases hsel
        | stop => cases hsel
        | args => cases hsel
        | call f => have h1 := ((hg.2 b).mp hbg).2; rw [show f b = false from hbt] at h1; cases h1
        | named n v => have h1 := ((hg.2.1 b).mp hbg).2; rw [hbt] at h1; cases h1
      have hbr : b ∈ rest := (List.mem_append.mp hbl).resolve_left hbg
      exact List.Sublist.append (List.singleton_sublist.mpr hag) (List.singleton_sublist.mpr hbr)
  | cons u ts ih =>
    intro R l hl hRa hstop hb hcls hbl
    rcases hl with ⟨hno, rfl⟩ | ⟨-, g, rest, rfl, hg, hrest⟩
    · cases hbl
    · have hune : u ≠ .stop := fun e => hstop (e ▸ List.mem_cons_self ..)
      have hbu := hb u (by simp)
      have hbg : b ∉ g := by
        intro hbg
        cases u with
        | cls c =>
          rw [show g = [c] from hg, List.mem_singleton] at hbg
          subst hbg
          exact hcls (List.mem_cons_self ..)
        | stop => exact hune rfl
        | args => rw [show g = [] from hg] at hbg; cases hbg
        | call f => have h1 := ((hg.2 b).mp hbg).2; rw [show f b = false from hbu] at h1; cases h1
        | named n v => have h1 := ((hg.2.1 b).mp hbg).2; rw [hbu] at h1; cases h1
      have hbr : b ∈ rest := (List.mem_append.mp hbl).resolve_left hbg
      cases hau : takes env tags u a with
      | false =>
        have := ih _ _ hrest ⟨hRa, hau⟩ (fun e => hstop (List.mem_cons_of_mem _ e))
          (fun v hv => hb v (List.mem_cons_of_mem _ hv)) (fun e => hcls (List.mem_cons_of_mem _ e)) hbr
        exact this.trans (List.sublist_append_right _ _)
      | true =>
        have hag : a ∈ g := by
          cases u with
          | cls c => cases hau
          | stop => exact absurd rfl hune
          | args => cases hau
          | call f => exact (hg.2 a).mpr ⟨hRa, hau⟩
          | named n v => exact (hg.2.1 a).mpr ⟨hRa, hau⟩
        exact List.Sublist.append (List.singleton_sublist.mpr hag) (List.singleton_sublist.mpr hbr)

/-- A list of tags without "class" and "id" leaves validation on. -/
theorem C39_validated (env : GuessEnv P) (db : ParserList P) (ts : List (Tag P)) (q : Query P)
    (h : Query.new env db ts = .ok q) (hc : ∀ p, Tag.cls p ∉ ts) (hi : ∀ v, Tag.named "id" v ∉ ts) :
    q.validate = true := by
  have H : ∀ (ts : List (Tag P)) (left : List P) (parsers : List P) (fallback : Option Bool)
      (x : List P × List P × Bool × Option Bool), (∀ p, Tag.cls p ∉ ts) → (∀ v, Tag.named "id" v ∉ ts) →
      queryLoop env db left true parsers fallback ts = .ok x → x.2.2.1 = true := by
    intro ts
    induction ts with
    | nil => intro left parsers fallback x _ _ h; cases h; rfl
    | cons t ts ih =>
      intro left parsers fallback x hc hi h
      unfold queryLoop at h
      split at h
      · cases h; rfl
      cases hg : getByTag env db left true t with
      | error e => rw [hg] at h; cases h
      | ok y =>
        obtain ⟨more, left', validate'⟩ := y
        rw [hg] at h
        simp only at h
        have hv : validate' = true := by
          cases t with
          | cls p => exact absurd (List.mem_cons_self ..) (hc p)
          | stop => cases hg; rfl
          | args => cases hg; rfl
          | call f => cases hg; rfl
          | named n v =>
            unfold getByTag at hg
            simp only at hg
            cases ht : translate env n v with
            | error e => rw [ht] at hg; cases hg
            | ok kv =>
              obtain ⟨key, v'⟩ := kv
              rw [ht] at hg
              have hk : key ≠ "id" := by
                intro e
                subst e
                unfold translate at ht
                split at ht
                · split at ht
                  · simp only at ht
                    split at ht <;> simp at ht
                  · cases ht
                · cases ht
                  exact hi _ (List.mem_cons_self ..)
              simp only [hk, if_false] at hg
              cases hg
              rfl
        subst hv
        exact ih _ _ _ _ (fun p hp => hc p (List.mem_cons_of_mem _ hp)) (fun v hp => hi v (List.mem_cons_of_mem _ hp)) h
  unfold Query.new at h
  cases hq : queryLoop env db db.parsers.dedup true [] none ts with
  | error e => rw [hq] at h; cases h
  | ok x =>
    rw [hq] at h
    have := H ts _ _ _ _ hc hi hq
    obtain ⟨a, b, c, d⟩ := x
    simp only at h this
    subst this
    split at h <;> cases h <;> rfl

/-! ## Trying the candidates -/

/-- A parser accepts a stream: it can be opened, and (with validation) the stream is large enough
and `validate()` returns `True`; the arguments can be set. -/
def Accepts (w : World P) (validate : Bool) (p : P) : Prop :=
  w.opens p = true ∧ (validate = true → w.large p = some true ∧ w.valid p = some true) ∧ w.setattr p = true

omit [DecidableEq P] in
theorem create_accepts (w : World P) (validate : Bool) (p : P) :
    create w validate p = .created ↔ Accepts w validate p := by
  unfold create Accepts
  cases w.opens p <;> cases validate <;> cases w.setattr p <;> simp
  · cases w.large p with
    | none => simp
    | some b => cases b with
      | false => simp
      | true => cases w.valid p with
        | none => simp
        | some c => cases c <;> simp
  · cases w.large p with
    | none => simp
    | some b => cases b with
      | false => simp
      | true => cases w.valid p with
        | none => simp
        | some c => cases c <;> simp

omit [DecidableEq P] in
theorem doparseLoop_spec (w : World P) (validate sf : Bool) (l : List P) (fallback : Bool) (fb : Option P) :
    let x := doparseLoop w validate sf fallback fb l
    (∃ pre p post, l = pre ++ p :: post ∧ (∀ y ∈ pre, ¬ Accepts w validate y) ∧ Accepts w validate p ∧
      x.1 = pre ++ [p] ∧ x.2.1 = some p) ∨
    ((∀ y ∈ l, ¬ Accepts w validate y) ∧ x.1 = l ∧ x.2.1 = none ∧
      x.2.2 = match l with
        | [] => fb
        | p :: _ => if fallback = true ∧ sf = true ∧ create w validate p = .validateError then some p else fb) := by
  induction l generalizing fallback fb with
  | nil => exact .inr ⟨by simp, rfl, rfl, rfl⟩
  | cons p r ih =>
    intro x
    have hx : x = doparseLoop w validate sf fallback fb (p :: r) := rfl
    unfold doparseLoop at hx
    cases hc : create w validate p with
    | created =>
      rw [hc] at hx
      rw [hx]
      exact .inl ⟨[], p, r, rfl, by simp, (create_accepts w validate p).mp hc, rfl, rfl⟩
    | validateError =>
      rw [hc] at hx
      have hna : ¬ Accepts w validate p := fun e => by
        rw [(create_accepts w validate p).mpr e] at hc; cases hc
      simp only at hx
      rcases ih false (if (fallback && sf) = true then some p else fb) with ⟨pre, c, post, h1, h2, h3, h4, h5⟩ | ⟨h1, h2, h3, h4⟩
      · left
        refine ⟨p :: pre, c, post, by rw [h1]; rfl, ?_, h3, (by rw [hx]; simp only [h4, List.cons_append]), by rw [hx]; exact h5⟩
        intro y hy
        rcases List.mem_cons.mp hy with rfl | hy
        · exact hna
        · exact h2 y hy
      · right
        refine ⟨?_, (by rw [hx]; simp only [h2]), by rw [hx]; exact h3, ?_⟩
        · intro y hy
          rcases List.mem_cons.mp hy with rfl | hy
          · exact hna
          · exact h1 y hy
        · rw [hx]
          simp only
          rw [h4]
          cases r with
          | nil => cases fallback <;> cases sf <;> simp [hc]
          | cons z r => cases fallback <;> cases sf <;> simp [hc]
    | exception =>
      rw [hc] at hx
      have hna : ¬ Accepts w validate p := fun e => by
        rw [(create_accepts w validate p).mpr e] at hc; cases hc
      simp only at hx
      rcases ih false fb with ⟨pre, c, post, h1, h2, h3, h4, h5⟩ | ⟨h1, h2, h3, h4⟩
      · left
        refine ⟨p :: pre, c, post, by rw [h1]; rfl, ?_, h3, (by rw [hx]; simp only [h4, List.cons_append]), by rw [hx]; exact h5⟩
        intro y hy
        rcases List.mem_cons.mp hy with rfl | hy
        · exact hna
        · exact h2 y hy
      · right
        refine ⟨?_, (by rw [hx]; simp only [h2]), by rw [hx]; exact h3, ?_⟩
        · intro y hy
          rcases List.mem_cons.mp hy with rfl | hy
          · exact hna
          · exact h1 y hy
        · rw [hx]
          simp only
          rw [h4]
          cases r with
          | nil => simp [hc]
          | cons z r => simp [hc]

/-- The parser is the first candidate that accepts the stream; the candidates before it were tried
once each, in order, whatever they raised, and none after it. -/
theorem C39_first (q : Query P) (w : World P) (useFallback fallback : Bool) (pre post : List P) (p : P)
    (hq : q.parsers = pre ++ p :: post) (hpre : ∀ x ∈ pre, ¬ Accepts w q.validate x) (hp : Accepts w q.validate p) :
    q.parse w useFallback fallback none = (pre ++ [p], .ok (.parser p), some p) := by
  have hdo : q.doparse w useFallback fallback = (pre ++ [p], .ok (.parser p)) := by
    unfold Query.doparse
    rcases doparseLoop_spec w q.validate (q.fallback == some true) q.parsers fallback none with
      ⟨pre', p', post', h1, h2, h3, h4, h5⟩ | ⟨h1, -⟩
    · have he : pre' = pre ∧ p' = p := by
        rw [hq] at h1
        clear h4 h5 hq
        induction pre generalizing pre' with
        | nil =>
          cases pre' with
          | nil => simp at h1; exact ⟨rfl, h1.1.symm⟩
          | cons y r => simp at h1; exact absurd (h1.1 ▸ hp) (h2 y (by simp))
        | cons z r ih =>
          cases pre' with
          | nil => simp at h1; exact absurd (h1.1 ▸ h3) (hpre z (by simp))
          | cons y r' =>
            simp only [List.cons_append, List.cons.injEq] at h1
            obtain ⟨e1, e2⟩ := ih (fun x hx => hpre x (by simp [hx])) r' h1.2 (fun x hx => h2 x (by simp [hx]))
            exact ⟨by rw [e1, h1.1], e2⟩
      obtain ⟨rfl, rfl⟩ := he
      rcases hd : doparseLoop w q.validate (q.fallback == some true) fallback none q.parsers with ⟨a, b, c⟩
      rw [hd] at h4 h5
      simp only at h4 h5 ⊢
      subst h4 h5
      rfl
    · exact absurd hp (h1 p (by rw [hq]; simp))
  unfold Query.parse
  simp only [hdo]

/-- If no candidate accepts the stream all of them were tried and the result is `None`, or, when
asked for, the parser that alone was selected by the first tag and refused the stream only by
validation. -/
theorem C39_none (q : Query P) (w : World P) (useFallback fallback : Bool)
    (h : ∀ x ∈ q.parsers, ¬ Accepts w q.validate x) :
    (q.parse w useFallback fallback none).1 = q.parsers ∧
    (useFallback = false → (q.parse w useFallback fallback none).2 = (.ok .nothing, none)) ∧
    (∀ p, (q.parse w useFallback fallback none).2.1 = .ok (.forced p) →
      useFallback = true ∧ fallback = true ∧ q.fallback = some true ∧ q.parsers.head? = some p ∧ w.opens p = true ∧
      q.validate = true) := by
  rcases doparseLoop_spec w q.validate (q.fallback == some true) q.parsers fallback none with
    ⟨pre, p, post, h1, h2, h3, -⟩ | ⟨h1, h2, h3, h4⟩
  · exact absurd h3 (h p (by rw [h1]; simp))
  · rcases hd : doparseLoop w q.validate (q.fallback == some true) fallback none q.parsers with ⟨a, b, c⟩
    rw [hd] at h2 h3 h4
    simp only at h2 h3 h4
    subst h2 h3
    cases c with
    | none =>
      have hp : q.parse w useFallback fallback none = (q.parsers, .ok .nothing, none) := by
        unfold Query.parse Query.doparse
        simp only [hd]
      rw [hp]
      exact ⟨rfl, fun _ => rfl, fun p hp => by cases hp⟩
    | some p =>
      cases useFallback with
      | false =>
        have hp : q.parse w false fallback none = (q.parsers, .ok .nothing, none) := by
          unfold Query.parse Query.doparse
          simp [hd]
        rw [hp]
        exact ⟨rfl, fun _ => rfl, fun p hp => by cases hp⟩
      | true =>
        cases ho : w.opens p with
        | false =>
          have hp : q.parse w true fallback none = (q.parsers, .error .runtime, none) := by
            unfold Query.parse Query.doparse
            simp [hd, ho]
          rw [hp]
          exact ⟨rfl, (fun e => by cases e), fun p hp => by cases hp⟩
        | true =>
          have hp : q.parse w true fallback none = (q.parsers, .ok (.forced p), some p) := by
            unfold Query.parse Query.doparse
            simp [hd, ho]
          rw [hp]
          refine ⟨rfl, (fun e => by cases e), fun p' hp => ?_⟩
          cases hp
          cases hq : q.parsers with
          | nil => rw [hq] at h4; cases h4
          | cons z r =>
            rw [hq] at h4
            simp only at h4
            split at h4
            · rename_i hcond
              cases h4
              refine ⟨rfl, hcond.1, by simpa using hcond.2.1, rfl, ho, ?_⟩
              cases hv : q.validate with
              | true => rfl
              | false =>
                have := hcond.2.2
                rw [hv] at this
                unfold create at this
                cases hs : w.setattr p <;> simp [ho, hs] at this
            · cases h4

/-! ## What does not hold -/

/-- Two parsers `false`, `true`, with identifiers and the extension "x" for `true`. -/
def demoTags : Bool → Tags
  | false => [("id", .one (.str "aaa".toList)), ("description", .one (.str ['A']))]
  | true => [("id", .one (.str "bbb".toList)), ("description", .one (.str ['B'])), ("file_ext", .tuple [.str ['x']])]

/-- The list of both. -/
def demoDb : ParserList Bool :=
  ⟨[false, true], [("id", [(.str "aaa".toList, [false]), (.str "bbb".toList, [true])]), ("category", []),
    ("file_ext", [(.str ['x'], [true])])]⟩

/-- Iteration order and lower case of the examples. -/
def demoGuess : GuessEnv Bool := ⟨id, id⟩

example : (ParserList.new Bool).load demoTags [false, true] = .ok demoDb := by decide +kernel

/-- An identifier that is not in the list also switches validation off: the first parser of the set
is returned for any stream. -/
theorem C39_unknown_id (w : World Bool) (hw : w.opens false = true) (hs : w.setattr false = true) :
    ∃ q, Query.new demoGuess demoDb [.named "id" (some (.str "zzz".toList))] = .ok q ∧
      q.parse w false true none = ([false], .ok (.parser false), some false) := by
  refine ⟨⟨[false, true], false, some false, some false⟩, by decide +kernel, ?_⟩
  exact C39_first _ w false true [] [true] false rfl (by simp) ⟨hw, by simp, hs⟩

/-- A parser kept from an earlier query of the same stream is returned although another candidate
comes first and accepts the stream. -/
theorem C39_cached (w : World Bool) (hw : ∀ p, Accepts w true p) :
    ∃ q, Query.new demoGuess demoDb [] = .ok q ∧ q.parse w false true none = ([false], .ok (.parser false), some false) ∧
      q.parse w false true (some true) = ([], .ok (.cached true), some true) := by
  refine ⟨⟨[false, true], true, none, some false⟩, by decide +kernel, ?_, rfl⟩
  exact C39_first _ w false true [] [true] false rfl (by simp) (hw false)

/-- A class asked for is tried twice if it is also in the list and does not accept the stream. -/
theorem C39_class_twice (w : World Bool) (hw : ∀ p, w.opens p = false) :
    ∃ q, Query.new demoGuess demoDb [.cls true] = .ok q ∧ (q.parse w false true none).1 = [true, false, true] := by
  refine ⟨⟨[true, false, true], false, some true, some false⟩, by decide +kernel, ?_⟩
  exact (C39_none _ w false true (fun x _ h => by have := h.1; rw [hw] at this; cases this)).1

/-! ## Examples -/

/-- `C39_order`, `C39_candidates`: the parser with the extension is tried first. -/
example : Query.new demoGuess demoDb [.named "filename" (some (.str "a/b.x".toList))] =
    .ok ⟨[true, false], true, some true, some false⟩ := by decide +kernel
/-- `C39_restricted` -/
example : Query.new demoGuess demoDb ([.named "id" (some (.str "bbb".toList))] ++ [.stop]) =
    .ok ⟨[true], false, some true, none⟩ := by decide +kernel
/-- `C39_filename` -/
example : IsExtension demoGuess ("a/".toList ++ ("b.tar".toList ++ '.' :: "gz".toList)) "gz".toList :=
  .dot "a/".toList "b.tar".toList "gz".toList (.inr rfl) (by decide) (by decide)
/-- `C39_first`, `C39_none` -/
example : Accepts ⟨fun _ => true, fun _ => true, fun _ => some true, fun p => some p⟩ true true ∧
    ¬ Accepts ⟨fun _ => true, fun _ => true, fun _ => some true, fun p => some p⟩ true false := by
  simp [Accepts]
/-- `C39_unknown_id`, `C39_cached`, `C39_class_twice` -/
example : (∀ p : Bool, Accepts ⟨fun _ => true, fun _ => true, fun _ => some true, fun _ => some true⟩ true p) := by
  simp [Accepts]

end Hachoir.Props
