import Verif.Metadata.Iso
import Verif.Props.SummaryMeta
import Verif.Props.Tar

/-!
# C187: what is told of a disc
-/

namespace Hachoir.Props
open Hachoir Hachoir.Metadata Hachoir.Metadata.Iso Hachoir.Time

/-! ### Specification -/

/-- A number in so many decimal digits. -/
def discDigits : Nat → Nat → Text
  | 0, _ => []
  | w + 1, n => discDigits w (n / 10) ++ [48 + n % 10]

/-- A moment as it is written on a disc; behind it are hundredths of a second and the time zone. -/
def discDate (d : DateTime) (rest : Text) : Text :=
  discDigits 4 d.year ++ (discDigits 2 d.month ++ (discDigits 2 d.day ++ (discDigits 2 d.hour ++ (discDigits 2 d.minute ++ (discDigits 2 d.second ++ rest)))))

/-- The texts that go to an attribute. -/
def discField (k : String) (f : Fields) : List Text :=
  if k = "title" then [f.volume, f.set]
  else if k = "author" then [f.publisher, f.preparer]
  else if k = "producer" then [f.application]
  else if k = "copyright" then [f.copyright]
  else []

/-- Those of them that are not blank. -/
def discTexts (cfg : Config) (k : String) (f : Fields) : List Text := (discField k f).filter fun t => normalizeString cfg t ≠ []

/-! ### Numbers -/

theorem disc_length (w : Nat) : ∀ n, (discDigits w n).length = w := by
  induction w with
  | zero => intro n; rfl
  | succ w ih => intro n; rw [discDigits, List.length_append, ih]; rfl

theorem disc_chars (w : Nat) : ∀ n, ∀ c ∈ discDigits w n, 48 ≤ c ∧ c ≤ 57 := by
  induction w with
  | zero => intro n c hc; cases hc
  | succ w ih =>
    intro n c hc
    rw [discDigits, List.mem_append] at hc
    rcases hc with hc | hc
    · exact ih _ c hc
    · rw [List.mem_singleton] at hc
      omega

theorem disc_fold (w : Nat) : ∀ n, n < 10 ^ w → (discDigits w n).foldl (fun x c => 10 * x + (c - 48)) 0 = n := by
  induction w with
  | zero => intro n h; rw [discDigits, List.foldl_nil]; omega
  | succ w ih =>
    intro n h
    rw [discDigits, List.foldl_append, ih (n / 10) (by rw [Nat.pow_succ] at h; omega)]
    simp only [List.foldl_cons, List.foldl_nil]
    omega

theorem digits_fold : ∀ (t : Text) (a : Bool) (v : Nat), (∀ c ∈ t, 48 ≤ c ∧ c ≤ 57) → (t ≠ [] ∨ a = true) → digits a v t = some (t.foldl (fun x c => 10 * x + (c - 48)) v)
  | [], a, v, _, h => by
    rw [digits, if_pos (h.resolve_left (by simp))]
    rfl
  | c :: t, a, v, hc, _ => by
    have := hc c (List.mem_cons_self ..)
    rw [digits, if_pos (by simpa using this), digits_fold t true _ (fun x hx => hc x (List.mem_cons_of_mem _ hx)) (.inr rfl)]
    rfl

theorem digits_strip (t : Text) (h : ∀ c ∈ t, 48 ≤ c ∧ c ≤ 57) : Field.stripText isSpace t = t := by
  have d : ∀ u : Text, (∀ c ∈ u, 48 ≤ c ∧ c ≤ 57) → u.dropWhile isSpace = u := by
    intro u hu
    cases u with
    | nil => rfl
    | cons c r =>
      have := hu c (List.mem_cons_self ..)
      rw [List.dropWhile_cons_of_neg]
      simp only [isSpace, Bool.or_eq_true, beq_iff_eq, Bool.and_eq_true, decide_eq_true_eq]
      omega
  rw [Field.stripText, d t h, d t.reverse (fun c hc => h c (List.mem_reverse.1 hc)), List.reverse_reverse]

theorem disc_int (w n : Nat) (hw : 0 < w) (hn : n < 10 ^ w) : pyInt (discDigits w n) = some (n : Int) := by
  have hc := disc_chars w n
  have hl := disc_length w n
  have hd := digits_fold (discDigits w n) false 0 hc (.inl (by intro e; rw [e] at hl; simp at hl; omega))
  rw [disc_fold w n hn] at hd
  rw [pyInt, digits_strip _ hc]
  generalize discDigits w n = t at *
  split
  · exact absurd (hc 43 (List.mem_cons_self ..)) (by omega)
  · exact absurd (hc 45 (List.mem_cons_self ..)) (by omega)
  · rw [hd]
    rfl

theorem part_at (before after : Text) (a w n : Nat) (ha : before.length = a) (hw : 0 < w) (hn : n < 10 ^ w) : part (before ++ (discDigits w n ++ after)) a (a + w) = some n := by
  have : slice (before ++ (discDigits w n ++ after)) a (a + w) = discDigits w n := by
    subst ha
    rw [slice, List.take_length_add_append, List.drop_left, List.take_left' (disc_length w n)]
  rw [part, this, disc_int w n hw hn]
  simp

theorem date_prefix (d : DateTime) (rest : Text) (h0 : 0 < d.year) (h1 : d.year < 10 ^ 4) : (txt "0000").isPrefixOf (discDate d rest) = false := by
  rw [Bool.eq_false_iff]
  intro h
  rw [List.isPrefixOf_iff_prefix] at h
  have he : discDigits 4 d.year = txt "0000" := by
    rw [discDate] at h
    exact ((List.prefix_of_prefix_length_le (List.prefix_append ..) h (by rw [disc_length]; decide)).eq_of_length (by rw [disc_length]; decide))
  have := disc_fold 4 d.year h1
  rw [he] at this
  have e0 : (txt "0000").foldl (fun x c => 10 * x + (c - 48)) 0 = 0 := by decide
  omega

theorem read_parts (d : DateTime) (rest : Text) (h0 : 0 < d.year) (hy : d.year < 10 ^ 4) (hm : d.month < 100) (hd : d.day < 100) (hh : d.hour < 100) (hmi : d.minute < 100) (hs : d.second < 100) :
    readTimestamp (discDate d rest) = match datetime d.year d.month d.day d.hour d.minute d.second with | .ok r => some (.datetime r none) | .error _ => none := by
  have l4 := disc_length 4
  have l2 := disc_length 2
  have p1 : part (discDate d rest) 0 4 = some d.year := part_at [] _ 0 4 d.year rfl (by omega) hy
  have p2 : part (discDate d rest) 4 6 = some d.month := part_at (discDigits 4 d.year) _ 4 2 d.month (l4 _) (by omega) hm
  have p3 : part (discDate d rest) 6 8 = some d.day := by
    have := part_at (discDigits 4 d.year ++ discDigits 2 d.month) (discDigits 2 d.hour ++ (discDigits 2 d.minute ++ (discDigits 2 d.second ++ rest))) 6 2 d.day (by simp [l4, l2]) (by omega) hd
    simpa [discDate] using this
  have p4 : part (discDate d rest) 8 10 = some d.hour := by
    have := part_at (discDigits 4 d.year ++ discDigits 2 d.month ++ discDigits 2 d.day) (discDigits 2 d.minute ++ (discDigits 2 d.second ++ rest)) 8 2 d.hour (by simp [l4, l2]) (by omega) hh
    simpa [discDate] using this
  have p5 : part (discDate d rest) 10 12 = some d.minute := by
    have := part_at (discDigits 4 d.year ++ discDigits 2 d.month ++ discDigits 2 d.day ++ discDigits 2 d.hour) (discDigits 2 d.second ++ rest) 10 2 d.minute (by simp [l4, l2]) (by omega) hmi
    simpa [discDate] using this
  have p6 : part (discDate d rest) 12 14 = some d.second := by
    have := part_at (discDigits 4 d.year ++ discDigits 2 d.month ++ discDigits 2 d.day ++ discDigits 2 d.hour ++ discDigits 2 d.minute) rest 12 2 d.second (by simp [l4, l2]) (by omega) hs
    simpa [discDate] using this
  rw [readTimestamp, date_prefix d rest h0 hy, if_neg (by simp), p1, p2, p3, p4, p5, p6]
  rfl

/-- **C187**: a moment written on a disc is read as this moment, whatever is behind it; digits that are no moment are none. -/
theorem C187_moment (d : DateTime) (rest : Text) (h0 : 0 < d.year) (hy : d.year < 10 ^ 4) (hm : d.month < 100) (hd : d.day < 100) (hh : d.hour < 100) (hmi : d.minute < 100) (hs : d.second < 100)
    (hus : d.microsecond = 0) :
    (GoodDay d.year d.month d.day ∧ d.hour < 24 ∧ d.minute < 60 ∧ d.second < 60 → readTimestamp (discDate d rest) = some (.datetime d none)) ∧
      (¬(GoodDay d.year d.month d.day ∧ d.hour < 24 ∧ d.minute < 60 ∧ d.second < 60) → readTimestamp (discDate d rest) = none) := by
  rw [read_parts d rest h0 hy hm hd hh hmi hs]
  constructor
  · rintro ⟨a, b, c, e⟩
    rw [(datetime_iff _ _ _ _ _ _ d).2 ⟨a, b, c, e, by rw [← hus]⟩]
  · intro hn
    cases hx : datetime d.year d.month d.day d.hour d.minute d.second with
    | error _ => rfl
    | ok r =>
      have := (datetime_iff _ _ _ _ _ _ r).1 hx
      exact absurd ⟨this.1, this.2.1, this.2.2.1, this.2.2.2.1⟩ hn

/-! ### What is told -/

theorem stamp_moment (t : Text) (v : Value) (h : readTimestamp t = some v) : Moment v := by
  unfold readTimestamp at h
  split at h
  · cases h
  · split at h
    · split at h
      · cases h
        trivial
      · cases h
    · cases h

theorem disc_core (cfg : Config) (env : Env) (hw : Writes env) (f : Fields) :
    ∃ g, Iso.extract cfg env f = ⟨txt "Metadata", filled env g⟩ ∧ ∀ k, g k = valsFor cfg env k (Iso.assignments f) [] := by
  rw [Iso.extract, show Metadata.new env (txt "Metadata") = ⟨txt "Metadata", filled env fun _ => []⟩ by rw [filled_nil]; rfl]
  obtain ⟨g, h1, -, h3⟩ := run_tame cfg env (txt "Metadata") (Iso.assignments f) (fun _ => []) (by simp) (by
    intro p hp
    rw [Iso.assignments] at hp
    simp only [List.mem_append, List.mem_cons, List.not_mem_nil, or_false, List.mem_map, Option.mem_toList] at hp
    rcases hp with (h | ⟨v, hv, rfl⟩) | ⟨v, hv, rfl⟩
    · rcases h with rfl | rfl | rfl | rfl | rfl | rfl <;> exact ⟨single_ne _ _ (by decide), tame_text cfg env _ (by simp [textAttrs]) _⟩
    · exact ⟨single_ne _ _ (by decide), tame_moment cfg env hw _ (.inl rfl) v (stamp_moment _ v hv)⟩
    · exact ⟨single_ne _ _ (by decide), tame_moment cfg env hw _ (.inr rfl) v (stamp_moment _ v hv)⟩)
  exact ⟨g, h1, h3⟩

theorem add_blank_vals (cfg : Config) (env : Env) (k : String) (hk : k ∈ textAttrs) (t : Text) (hb : normalizeString cfg t = []) (vs : List Item) : addVals cfg env k (.value (.text t)) vs = vs := by
  obtain ⟨d0, h1, -, -, h4⟩ := text_attr env k hk
  unfold addVals
  rw [h1]
  simp only
  rw [add_blank cfg { d0 with values := vs } t h4 hb]

/-- Blank texts change nothing. -/
theorem fold_filter (cfg : Config) (env : Env) (k : String) (hk : k ∈ textAttrs) : ∀ (l : List Text) (vs : List Item),
    (l.map fun v => ((k, .value (.text v)) : String × Arg)).foldl (fun l p => addVals cfg env k p.2 l) vs =
      ((l.filter fun t => normalizeString cfg t ≠ []).map fun v => ((k, .value (.text v)) : String × Arg)).foldl (fun l p => addVals cfg env k p.2 l) vs
  | [], _ => rfl
  | t :: l, vs => by
    rw [List.map_cons, List.foldl_cons]
    by_cases hb : normalizeString cfg t = []
    · rw [List.filter_cons_of_neg (by simpa using hb)]
      simp only
      rw [add_blank_vals cfg env k hk t hb]
      exact fold_filter cfg env k hk l vs
    · rw [List.filter_cons_of_pos (by simpa using hb), List.map_cons, List.foldl_cons]
      exact fold_filter cfg env k hk l _

theorem stamps_other (k : String) (f : Fields) (h1 : k ≠ "creation_date") (h2 : k ≠ "last_modification") :
    (((readTimestamp f.creation).toList.map (fun v => (("creation_date", .value v) : String × Arg)) ++ (readTimestamp f.modification).toList.map (fun v => (("last_modification", .value v) : String × Arg))).filter fun p => p.1 = k) = [] := by
  rw [List.filter_eq_nil_iff]
  intro p hp
  simp only [List.mem_append, List.mem_map] at hp
  rcases hp with ⟨v, -, rfl⟩ | ⟨v, -, rfl⟩
  · simpa using h1.symm
  · simpa using h2.symm

/-- **C187**: the names of the disc and of its set are told as titles, publisher and preparer as authors, the application as producer and the copyright, if they are not blank and none is the beginning of another. -/
theorem C187_texts (cfg : Config) (env : Env) (hw : Writes env) (f : Fields) (k : String) (hk : k ∈ ["title", "author", "producer", "copyright"]) (hp : ((discTexts cfg k f).map (toldName cfg)).Pairwise TextsApart) :
    toldFor (Iso.extract cfg env f) k = (discTexts cfg k f).map fun t => .text (toldName cfg t) := by
  obtain ⟨g, h1, h3⟩ := disc_core cfg env hw f
  have hk' : k ∈ textAttrs := by
    simp only [List.mem_cons, List.not_mem_nil, or_false] at hk
    rcases hk with rfl | rfl | rfl | rfl <;> decide
  obtain ⟨d0, hd0, -⟩ := text_attr env k hk'
  have key : (Iso.assignments f).filter (fun p => p.1 = k) = (discField k f).map fun v => ((k, .value (.text v)) : String × Arg) := by
    rw [Iso.assignments, List.append_assoc, List.filter_append]
    simp only [List.mem_cons, List.not_mem_nil, or_false] at hk
    rcases hk with rfl | rfl | rfl | rfl <;> rw [stamps_other _ f (by decide) (by decide)] <;> rfl
  rw [h1, told_filled env _ g k d0 hd0, h3, valsFor, key, fold_filter cfg env k hk']
  have := fold_apart cfg env k hk' (discTexts cfg k f) [] (fun t ht => by
    rw [discTexts] at ht
    simpa using (List.mem_filter.1 ht).2) (by simpa using hp)
  rw [List.map_nil, List.nil_append] at this
  rw [discTexts] at this ⊢
  rw [this, List.map_map, List.map_map]
  rfl

/-- What is told of a moment that may be none. -/
def stampTold (o : Option Value) : List Value :=
  match o with
  | none => []
  | some v => momentTold v

/-- **C187**: the dates told are those read, if they are in the years told. -/
theorem C187_dates (cfg : Config) (env : Env) (hw : Writes env) (f : Fields) :
    toldFor (Iso.extract cfg env f) "creation_date" = stampTold (readTimestamp f.creation) ∧ toldFor (Iso.extract cfg env f) "last_modification" = stampTold (readTimestamp f.modification) := by
  obtain ⟨g, h1, h3⟩ := disc_core cfg env hw f
  rw [h1, told_filled env _ g _ _ (reg_creation env), told_filled env _ g _ _ (reg_last env), h3, h3]
  constructor
  · have key : (Iso.assignments f).filter (fun p => p.1 = "creation_date") = (readTimestamp f.creation).toList.map (fun v => ("creation_date", .value v)) := by
      rw [Iso.assignments]
      cases readTimestamp f.creation <;> cases readTimestamp f.modification <;> rfl
    rw [valsFor, key]
    cases hr : readTimestamp f.creation with
    | none => rfl
    | some v => exact moment_vals cfg env hw _ (.inl rfl) v (stamp_moment _ v hr)
  · have key : (Iso.assignments f).filter (fun p => p.1 = "last_modification") = (readTimestamp f.modification).toList.map (fun v => ("last_modification", .value v)) := by
      rw [Iso.assignments]
      cases readTimestamp f.creation <;> cases readTimestamp f.modification <;> rfl
    rw [valsFor, key]
    cases hr : readTimestamp f.modification with
    | none => rfl
    | some v => exact moment_vals cfg env hw _ (.inr rfl) v (stamp_moment _ v hr)

/-- **C187**: nothing is told of a date of zeros. -/
theorem C187_zeros (rest : Text) : readTimestamp (txt "0000" ++ rest) = none := by
  rw [readTimestamp, if_pos (List.isPrefixOf_iff_prefix.2 (List.prefix_append ..))]

/-- **C187** (disagreement): moments of different time zones that are hours apart are told as the same. -/
theorem C187_zone (d : DateTime) (rest rest' : Text) (h0 : 0 < d.year) (hy : d.year < 10 ^ 4) (hm : d.month < 100) (hd : d.day < 100) (hh : d.hour < 100) (hmi : d.minute < 100) (hs : d.second < 100) :
    readTimestamp (discDate d rest) = readTimestamp (discDate d rest') := by
  rw [read_parts d rest h0 hy hm hd hh hmi hs, read_parts d rest' h0 hy hm hd hh hmi hs]

/-- A text on a disc: blanks may be around it. -/
structure DiscText where
  before : Nat
  text : Bytes
  after : Nat

def DiscText.bytes (t : DiscText) : Bytes := List.replicate t.before 32 ++ t.text ++ List.replicate t.after 32

def DiscText.Plain (t : DiscText) : Prop := (∀ c ∈ t.text.head?, c ≠ 32) ∧ ∀ c ∈ t.text.getLast?, c ≠ 32

/-- The text in ISO-8859-1. -/
def DiscText.told (t : DiscText) : Text := t.text.map UInt8.toNat

theorem disc_text (t : DiscText) (h : t.Plain) : isoText t.bytes = t.told := by
  obtain ⟨h1, h2⟩ := h
  rw [isoText, DiscText.bytes, List.map_append, List.map_append, DiscText.told]
  have ne : ∀ c : UInt8, c ≠ 32 → (c.toNat == 32) = false := by
    intro c hc
    rw [beq_eq_false_iff_ne]
    intro e
    exact hc (UInt8.toNat_inj.1 e)
  refine strip_text _ _ _ _ ?_ ?_ ?_ ?_
  · intro x hx
    simp only [List.map_replicate, List.mem_replicate] at hx
    rw [hx.2]; rfl
  · intro x hx
    simp only [List.map_replicate, List.mem_replicate] at hx
    rw [hx.2]; rfl
  · intro x hx
    rw [List.head?_map] at hx
    obtain ⟨c, hc, rfl⟩ := Option.mem_map.1 hx
    exact ne c (h1 c hc)
  · intro x hx
    rw [List.getLast?_map] at hx
    obtain ⟨c, hc, rfl⟩ := Option.mem_map.1 hx
    exact ne c (h2 c hc)

/-- **C187** The fields of a descriptor are those of the texts written to it, without the blanks around them. -/
theorem C187_fields (p : Formats.Iso.Primary) (volume set publisher preparer application copyright creation modification : DiscText) (files dates : List Bytes)
    (hv : p.volumeId = volume.bytes) (ht : p.texts = [set.bytes, publisher.bytes, preparer.bytes, application.bytes]) (hf : p.files = copyright.bytes :: files)
    (hd : p.dates = creation.bytes :: modification.bytes :: dates)
    (hp : ∀ t ∈ [volume, set, publisher, preparer, application, copyright, creation, modification], t.Plain) :
    fieldsOf p = { volume := volume.told, set := set.told, publisher := publisher.told, preparer := preparer.told, application := application.told, copyright := copyright.told,
                   creation := creation.told, modification := modification.told } := by
  rw [fieldsOf, hv, ht, hf, hd]
  simp only [List.mem_cons, List.not_mem_nil, or_false, forall_eq_or_imp, forall_eq] at hp
  obtain ⟨a, b, c, d, e, f, g, i⟩ := hp
  simp only [List.getD_cons_zero, List.getD_cons_succ, disc_text, a, b, c, d, e, f, g, i]

/-- **C187** A moment with a negative number is not told. -/
theorem C187_negative (t : Text) (a b : Nat) (i : Int) (hab : (a, b) ∈ [(0, 4), (4, 6), (6, 8), (8, 10), (10, 12), (12, 14)]) (hi : i < 0)
    (h : pyInt (slice t a b) = some i) : readTimestamp t = none := by
  have hn : part t a b = none := by
    rw [part, h]
    simp only
    rw [if_neg (by omega)]
  rw [readTimestamp]
  by_cases hz : (txt "0000").isPrefixOf t = true
  · rw [if_pos hz]
  · rw [if_neg hz]
    simp only [List.mem_cons, List.not_mem_nil, or_false, Prod.mk.injEq] at hab
    rcases hab with ⟨rfl, rfl⟩ | ⟨rfl, rfl⟩ | ⟨rfl, rfl⟩ | ⟨rfl, rfl⟩ | ⟨rfl, rfl⟩ | ⟨rfl, rfl⟩ <;> rw [hn] <;> split <;> simp_all

example : readTimestamp (txt "2006-112131415") = none := C187_negative _ 4 6 (-1) (by simp) (by omega) (by decide +kernel)

/-! ### Examples -/

example : discDate ⟨2006, 7, 11, 23, 5, 59, 0⟩ (txt "00" ++ [4]) = txt "2006071123055900" ++ [4] := by decide +kernel

example : readTimestamp (txt "2006071123055900" ++ [4]) = some (.datetime ⟨2006, 7, 11, 23, 5, 59, 0⟩ none) := by decide +kernel

example : GoodDay 2006 7 11 := ⟨by simp [Spec.Day.Valid, Spec.monthLength], by omega⟩

example : discTexts {} "title" ⟨txt "MUSIC", [], txt "Ann", [], [], [], [], []⟩ = [txt "MUSIC"] := by decide +kernel

end Hachoir.Props
