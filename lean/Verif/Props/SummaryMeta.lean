import Verif.Metadata.Ole2
import Verif.Props.Summary
import Verif.Props.TtfNames
import Verif.Props.OggFile

/-!
# C167: what is told of Office documents
-/

namespace Hachoir.Props
open Hachoir Hachoir.Formats Hachoir.Formats.Summary Hachoir.Metadata Hachoir.Core Hachoir.Metadata.Archive _root_.Props

/-! ### Specification -/

/-- The attributes of the properties of the summary and of the document summary. -/
def officeAttrs (doc : Bool) : List (Nat × String) :=
  if doc then [(3, "title"), (14, "author")]
  else [(2, "title"), (3, "title"), (4, "author"), (6, "comment"), (8, "author"), (12, "creation_date"), (13, "last_modification"), (14, "nb_page"), (18, "producer")]

/-- The text of a property, if it is one. -/
def officeText (decode : Option String → Bytes → Text) : Content → Option Text
  | .value (.text c b) => some (decode c b)
  | .value (.wide b) => some (decode (some "UTF-16-LE") b)
  | _ => none

/-- The texts for an attribute in these properties: those that are not blank. -/
def officeTexts (cfg : Config) (decode : Option String → Bytes → Text) (doc : Bool) (k : String) (l : List Property) : List Text :=
  l.filterMap fun p => if (p.id, k) ∈ officeAttrs doc then (officeText decode p.content).filter (fun t => normalizeString cfg t ≠ []) else none

/-- The property has a value of the type its attribute needs. -/
def OfficeTyped (decode : Option String → Bytes → Text) (doc : Bool) (p : Property) : Prop :=
  ∀ k v, (p.id, k) ∈ officeAttrs doc → p.content = .value v →
    (k ∈ ["title", "author", "comment", "producer"] ∧ (officeText decode p.content).isSome) ∨
    (k ∈ ["creation_date", "last_modification"] ∧ ∃ n, v = .time n) ∨ (k = "nb_page" ∧ ∃ n, v = .num n)

/-- A section whose properties can be found (C166) and have the types they need. -/
structure OfficeSection (decode : Option String → Bytes → Text) (doc : Bool) (s : Section) : Prop where
  follow : ∃ e ≤ s.size, PropsFollow (8 + 8 * s.props.length) s.props e
  typed : ∀ p ∈ s.props, OfficeTyped decode doc p

/-- The properties of a section that may be missing. -/
def propsOf : Option Section → List Property
  | none => []
  | some s => s.props

/-! ### Assignments -/

theorem normalize_twice (cfg : Config) (t : Text) : normalizeString cfg (normalizeString cfg t) = normalizeString cfg t := by
  unfold normalizeString
  cases cfg.rawOutput with
  | true => rfl
  | false =>
    simp only [Bool.false_eq_true, if_false]
    obtain ⟨h1, h2⟩ := stripText_ends isStrip t
    generalize Field.stripText isStrip t = u at h1 h2
    have d : ∀ l : Text, (∀ x, l.head? = some x → isStrip x = false) → l.dropWhile isStrip = l := by
      intro l hl
      cases l with
      | nil => rfl
      | cons c r => rw [List.dropWhile_cons_of_neg (by simp [hl c rfl])]
    rw [Field.stripText, d u h1, d u.reverse (by simpa using h2), List.reverse_reverse]

theorem run_tame (cfg : Config) (env : Env) (h : Text) : ∀ (l : List (String × Arg)) (f : String → List Item), (∀ k', ∀ i ∈ f k', Good i.value) →
    (∀ p ∈ l, single p = [p] ∧ Tame cfg env p.1 p.2) →
    ∃ g, (⟨h, filled env f⟩ : Metadata).run cfg l = ⟨h, filled env g⟩ ∧ (∀ k', ∀ i ∈ g k', Good i.value) ∧ ∀ k', g k' = valsFor cfg env k' l (f k')
  | [], f, hs, _ => ⟨f, rfl, hs, fun _ => rfl⟩
  | p :: l, f, hs, ht => by
    obtain ⟨e1, e2⟩ := ht p (List.mem_cons_self ..)
    obtain ⟨g, h1, h2, h3⟩ := set_tame cfg env h f p hs (fun q hq => by
      rw [e1, List.mem_singleton] at hq
      rw [hq]
      exact e2)
    obtain ⟨g', h4, h5, h6⟩ := run_tame cfg env h l g h2 (fun q hq => ht q (List.mem_cons_of_mem _ hq))
    refine ⟨g', ?_, h5, fun k' => ?_⟩
    · obtain ⟨k, a⟩ := p
      rw [Metadata.run, h1]
      exact h4
    · rw [h6, h3, e1, ← valsFor_append]
      rfl

theorem assigned_append (cfg : Config) : ∀ (l r : List (String × Arg)) (m : Metadata), m.run cfg (l ++ r) = (m.run cfg l).run cfg r
  | [], _, _ => rfl
  | (k, a) :: l, r, m => by
    rw [List.cons_append, Metadata.run, Metadata.run]
    cases m.set cfg k a <;> exact assigned_append cfg l r _

theorem office_attr (doc : Bool) (id : Nat) (k : String) : Ole2.attrOf doc id = some k ↔ (id, k) ∈ officeAttrs doc := by
  have key : ∀ (n : Nat) (s : String) (r : Option String) (l : List (Nat × String)), (∀ x ∈ l, x.1 ≠ n) → (r = some k ↔ (id, k) ∈ l) →
      ((if id = n then some s else r) = some k ↔ (id, k) ∈ (n, s) :: l) := by
    intro n s r l hn hr
    by_cases h : id = n
    · subst h
      rw [if_pos rfl]
      constructor
      · intro e
        injection e with e
        rw [e]
        exact List.mem_cons_self ..
      · intro e
        rcases List.mem_cons.1 e with e | e
        · injection e with _ e
          rw [e]
        · exact absurd rfl (hn _ e)
    · rw [if_neg h, hr]
      constructor
      · exact List.mem_cons_of_mem _
      · intro e
        rcases List.mem_cons.1 e with e | e
        · injection e with e _
          exact absurd e h
        · exact e
  have nil : (none : Option String) = some k ↔ (id, k) ∈ ([] : List (Nat × String)) := by simp
  cases doc
  · exact key _ _ _ _ (by decide) (key _ _ _ _ (by decide) (key _ _ _ _ (by decide) (key _ _ _ _ (by decide) (key _ _ _ _ (by decide)
      (key _ _ _ _ (by decide) (key _ _ _ _ (by decide) (key _ _ _ _ (by decide) (key _ _ _ _ (by decide) nil))))))))
  · exact key _ _ _ _ (by decide) (key _ _ _ _ (by decide) nil)

/-- What is told of a property that is found. -/
def officeItem (cfg : Config) (env : Env) (decode : Option String → Bytes → Text) (doc : Bool) (p : Property) : Option (String × Arg) :=
  match p.content with
  | .value v => (Ole2.normalized cfg decode v).bind (Ole2.assigned env decode doc p.id v)
  | _ => none

theorem told_item (cfg : Config) (env : Env) (decode : Option String → Bytes → Text) (doc : Bool) (s : Section) (h : OfficeSection decode doc s) (p : Property) (hp : p ∈ s.props) :
    Ole2.told cfg env decode doc s p = officeItem cfg env decode doc p := by
  obtain ⟨e, he, hf⟩ := h.follow
  unfold Ole2.told officeItem
  rw [C166_found_partial s e hf he p hp]
  cases p.content <;> rfl

theorem reg_page (env : Env) : (registerAllItems env).find? (fun d => d.key = "nb_page") =
    some { key := "nb_page", priority := 202, description := "Nb page", filter := some (.number (some (.int 1)) (some (.int 20000))), plainText := Metadata.plainText env } := by
  simp [registerAllItems]

theorem tame_page (cfg : Config) (env : Env) (n : Nat) : Tame cfg env "nb_page" (.value (.num (.int n))) :=
  ⟨_, reg_page env, fun _ => .inr ⟨.num (.int n), none, rfl, fun _ _ h => (by cases h), ⟨_, rfl⟩⟩⟩

theorem time_moment (n : Nat) : Moment (Ole2.timeValue n) := by
  unfold Ole2.timeValue
  split <;> trivial

theorem single_ne (k : String) (a : Arg) (h : k ≠ "track_number") : single (k, a) = [(k, a)] := by
  rw [single, trackTotal.eq_def]
  simp only
  rw [if_neg h]

theorem text_content (decode : Option String → Bytes → Text) (v : Summary.Value) : officeText decode (.value v) = Ole2.textOf decode v := by
  cases v <;> rfl

theorem item_tame (cfg : Config) (env : Env) (hw : Writes env) (decode : Option String → Bytes → Text) (doc : Bool) (p : Property) (h : OfficeTyped decode doc p) (q : String × Arg)
    (hq : officeItem cfg env decode doc p = some q) : single q = [q] ∧ Tame cfg env q.1 q.2 := by
  unfold officeItem at hq
  split at hq
  · rename_i v hv
    obtain ⟨t, ht, hq⟩ := Option.bind_eq_some_iff.1 hq
    unfold Ole2.assigned at hq
    split at hq
    · cases hq
    · split at hq
      · rename_i k hk
        split at hq
        · cases hq
        · injection hq with hq
          subst hq
          have hty := h k v ((office_attr doc p.id k).1 hk) hv
          rw [hv, text_content] at hty
          unfold Ole2.normalized at ht
          rcases hty with ⟨h1, h2⟩ | ⟨h1, n, rfl⟩ | ⟨rfl, n, rfl⟩
          · obtain ⟨u, hu⟩ := Option.isSome_iff_exists.1 h2
            rw [hu] at ht
            simp only at ht
            split at ht
            · cases ht
            · injection ht with ht
              subst ht
              have hm : k ∈ textAttrs ∧ k ≠ "track_number" := by
                simp only [List.mem_cons, List.not_mem_nil, or_false] at h1
                rcases h1 with rfl | rfl | rfl | rfl <;> decide
              exact ⟨single_ne _ _ hm.2, tame_text cfg env k hm.1 _⟩
          · injection ht with ht
            subst ht
            simp only [List.mem_cons, List.not_mem_nil, or_false] at h1
            exact ⟨single_ne _ _ (by rcases h1 with rfl | rfl <;> decide), tame_moment cfg env hw k h1 _ (time_moment n)⟩
          · injection ht with ht
            subst ht
            exact ⟨single_ne _ _ (by decide), tame_page cfg env n⟩
      · split at hq
        · cases hq
        · injection hq with hq
          subst hq
          exact ⟨single_ne _ _ (by decide), tame_text cfg env "comment" (by decide) _⟩
  · cases hq

/-- The comment on the Word document. -/
def wordComment (b : Bool) : Text := txt (if b then "Encrypted: True" else "Encrypted: False")

/-- All the assignments. -/
def officeItems (cfg : Config) (env : Env) (decode : Option String → Bytes → Text) (doc : Option Section) (word : Option Bool) (sum : Option Section) : List (String × Arg) :=
  (propsOf doc).filterMap (officeItem cfg env decode true) ++ ((word.toList.map fun b => (("comment", .value (.text (wordComment b))) : String × Arg)) ++
    (propsOf sum).filterMap (officeItem cfg env decode false))

theorem office_core (cfg : Config) (env : Env) (hw : Writes env) (decode : Option String → Bytes → Text) (doc : Option Section) (word : Option Bool) (sum : Option Section)
    (hd : ∀ s ∈ doc, OfficeSection decode true s) (hs : ∀ s ∈ sum, OfficeSection decode false s) :
    ∃ g, Ole2.extract cfg env decode doc word sum = ⟨txt "Metadata", filled env g⟩ ∧ ∀ k, g k = valsFor cfg env k (officeItems cfg env decode doc word sum) [] := by
  have use : ∀ (b : Bool) (s : Option Section) (m : Metadata), (∀ x ∈ s, OfficeSection decode b x) → Ole2.useSummary cfg env decode b m s = m.run cfg ((propsOf s).filterMap (officeItem cfg env decode b)) := by
    intro b s m h
    cases s with
    | none => rfl
    | some s =>
      show m.run cfg (s.props.filterMap (Ole2.told cfg env decode b s)) = m.run cfg (s.props.filterMap (officeItem cfg env decode b))
      rw [List.filterMap_congr fun p hp => told_item cfg env decode b s (h s rfl) p hp]
  have hword : ∀ m : Metadata, Ole2.useWord cfg m word = m.run cfg (word.toList.map fun b => (("comment", .value (.text (wordComment b))) : String × Arg)) := by
    intro m
    cases word with
    | none => rfl
    | some b => cases b <;> rfl
  have tame : ∀ (b : Bool) (s : Option Section), (∀ x ∈ s, OfficeSection decode b x) → ∀ q ∈ (propsOf s).filterMap (officeItem cfg env decode b), single q = [q] ∧ Tame cfg env q.1 q.2 := by
    intro b s h q hq
    obtain ⟨p, hp, e⟩ := List.mem_filterMap.1 hq
    cases s with
    | none => cases hp
    | some s => exact item_tame cfg env hw decode b p ((h s rfl).typed p hp) q e
  obtain ⟨g, h1, -, h3⟩ := run_tame cfg env (txt "Metadata") (officeItems cfg env decode doc word sum) (fun _ => []) (by simp) (fun q hq => by
    unfold officeItems at hq
    rcases List.mem_append.1 hq with hq | hq
    · exact tame true doc hd q hq
    · rcases List.mem_append.1 hq with hq | hq
      · obtain ⟨b, -, rfl⟩ := List.mem_map.1 hq
        exact ⟨single_ne _ _ (by decide), tame_text cfg env "comment" (by decide) _⟩
      · exact tame false sum hs q hq)
  refine ⟨g, ?_, h3⟩
  rw [Ole2.extract, use false sum _ hs, hword, use true doc _ hd, ← assigned_append, ← assigned_append]
  rw [show Metadata.new env (txt "Metadata") = ⟨txt "Metadata", filled env fun _ => []⟩ by rw [filled_nil]; rfl]
  exact h1

/-! ### Texts -/

theorem item_text (cfg : Config) (env : Env) (decode : Option String → Bytes → Text) (doc : Bool) (p : Property) (h : OfficeTyped decode doc p) (k : String) (hk : k ∈ ["title", "author", "producer"]) :
    (officeItem cfg env decode doc p).filter (fun q => decide (q.1 = k)) =
      (if (p.id, k) ∈ officeAttrs doc then (officeText decode p.content).filter (fun t => normalizeString cfg t ≠ []) else none).map fun t => (k, .value (.text (normalizeString cfg t))) := by
  have hc : k ≠ "comment" ∧ k ≠ "last_modification" ∧ k ≠ "creation_date" ∧ k ≠ "nb_page" := by
    simp only [List.mem_cons, List.not_mem_nil, or_false] at hk
    rcases hk with rfl | rfl | rfl <;> decide
  have h1 : (1, k) ∉ officeAttrs doc := by
    cases doc <;> simp [officeAttrs]
  unfold officeItem
  by_cases hm : (p.id, k) ∈ officeAttrs doc
  · have hi : p.id ≠ 1 := fun e => h1 (e ▸ hm)
    rw [if_pos hm]
    cases hv : p.content with
    | nothing => rfl
    | items l => rfl
    | value v =>
      have hty := h k v hm hv
      rw [hv, text_content] at hty
      rcases hty with ⟨-, h2⟩ | ⟨h2, -⟩ | ⟨h2, -⟩
      · obtain ⟨u, hu⟩ := Option.isSome_iff_exists.1 h2
        rw [text_content, hu]
        simp only
        rw [Ole2.normalized, hu]
        simp only
        by_cases hb : normalizeString cfg u = []
        · rw [if_pos hb, Option.filter_some_neg (by simp [hb])]
          rfl
        · rw [if_neg hb, Option.filter_some_pos (by simpa using hb), Option.bind_some, Ole2.assigned, if_neg hi, (office_attr doc p.id k).2 hm]
          simp only
          rw [if_neg (fun e => hc.2.1 e.1), Option.filter_some_pos (by simp)]
          rfl
      · simp only [List.mem_cons, List.not_mem_nil, or_false] at h2
        rcases h2 with e | e
        · exact absurd e hc.2.2.1
        · exact absurd e hc.2.1
      · exact absurd h2 hc.2.2.2
  · rw [if_neg hm, Option.map_none]
    cases hv : p.content with
    | nothing => rfl
    | items l => rfl
    | value v =>
      simp only
      rw [Option.filter_eq_none_iff]
      intro q hq e
      obtain ⟨t, -, hq⟩ := Option.bind_eq_some_iff.1 hq
      unfold Ole2.assigned at hq
      have e : q.1 = k := by simpa using e
      split at hq
      · cases hq
      · split at hq
        · rename_i k' hk'
          split at hq
          · cases hq
          · injection hq with hq
            subst hq
            exact hm ((office_attr doc p.id k).1 (by rw [hk']; exact congrArg some e))
        · split at hq
          · cases hq
          · injection hq with hq
            subst hq
            exact hc.1 e.symm

theorem items_text (cfg : Config) (env : Env) (decode : Option String → Bytes → Text) (doc : Bool) (l : List Property) (h : ∀ p ∈ l, OfficeTyped decode doc p) (k : String) (hk : k ∈ ["title", "author", "producer"]) :
    (l.filterMap (officeItem cfg env decode doc)).filter (fun q => decide (q.1 = k)) = (officeTexts cfg decode doc k l).map fun t => (k, .value (.text (normalizeString cfg t))) := by
  rw [List.filter_filterMap, officeTexts, List.map_filterMap]
  exact List.filterMap_congr fun p hp => item_text cfg env decode doc p (h p hp) k hk

theorem typed_props (decode : Option String → Bytes → Text) (doc : Bool) (s : Option Section) (h : ∀ x ∈ s, OfficeSection decode doc x) : ∀ p ∈ propsOf s, OfficeTyped decode doc p := by
  cases s with
  | none => intro p hp; cases hp
  | some s => exact (h s rfl).typed

/-- **C167.** The titles, authors and programs told are the texts that are not blank among the properties for them: first those of the document summary, then those of the summary
(of sections whose properties follow each other: see `C167_lost` and `C167_swapped` for others; texts that begin with one another are merged). -/
theorem C167_texts_partial (cfg : Config) (env : Env) (hw : Writes env) (decode : Option String → Bytes → Text) (doc : Option Section) (word : Option Bool) (sum : Option Section)
    (hd : ∀ s ∈ doc, OfficeSection decode true s) (hs : ∀ s ∈ sum, OfficeSection decode false s) (k : String) (hk : k ∈ ["title", "author", "producer"])
    (hp : ((officeTexts cfg decode true k (propsOf doc) ++ officeTexts cfg decode false k (propsOf sum)).map (toldName cfg)).Pairwise TextsApart) :
    toldFor (Ole2.extract cfg env decode doc word sum) k =
      (officeTexts cfg decode true k (propsOf doc) ++ officeTexts cfg decode false k (propsOf sum)).map fun t => .text (toldName cfg t) := by
  obtain ⟨g, h1, h3⟩ := office_core cfg env hw decode doc word sum hd hs
  have hk' : k ∈ textAttrs ∧ k ≠ "comment" := by
    simp only [List.mem_cons, List.not_mem_nil, or_false] at hk
    rcases hk with rfl | rfl | rfl <;> decide
  obtain ⟨d0, hd0, -⟩ := text_attr env k hk'.1
  have hword : (word.toList.map fun b => (("comment", .value (.text (wordComment b))) : String × Arg)).filter (fun q => decide (q.1 = k)) = [] := by
    rw [List.filter_eq_nil_iff]
    intro q hq e
    obtain ⟨b, -, rfl⟩ := List.mem_map.1 hq
    exact hk'.2 (by simpa using e : "comment" = k).symm
  have hn : ∀ t ∈ officeTexts cfg decode true k (propsOf doc) ++ officeTexts cfg decode false k (propsOf sum), normalizeString cfg t ≠ [] := by
    have : ∀ b l, ∀ t ∈ officeTexts cfg decode b k l, normalizeString cfg t ≠ [] := by
      intro b l t ht
      obtain ⟨p, -, e⟩ := List.mem_filterMap.1 ht
      split at e
      · simpa using (Option.filter_eq_some_iff.1 e).2
      · cases e
    intro t ht
    rcases List.mem_append.1 ht with ht | ht <;> exact this _ _ t ht
  rw [h1, told_filled env _ g k d0 hd0, h3, valsFor, officeItems, List.filter_append, List.filter_append, hword, List.nil_append,
    items_text cfg env decode true _ (typed_props decode true doc hd) k hk, items_text cfg env decode false _ (typed_props decode false sum hs) k hk, ← List.map_append]
  generalize officeTexts cfg decode true k (propsOf doc) ++ officeTexts cfg decode false k (propsOf sum) = ts at hp hn
  have e : (ts.map (normalizeString cfg)).map (toldName cfg) = ts.map (toldName cfg) := by
    rw [List.map_map]
    refine List.map_congr_left fun t _ => ?_
    rw [Function.comp_apply, toldName, toldName, normalize_twice]
  have := fold_apart cfg env k hk'.1 (ts.map (normalizeString cfg)) [] (fun t ht => by
    obtain ⟨u, hu, rfl⟩ := List.mem_map.1 ht
    rw [normalize_twice]
    exact hn u hu) (by rw [e]; simpa using hp)
  rw [e, List.map_nil, List.nil_append, List.map_map] at this
  refine (congrArg (List.map Item.value) this).trans ?_
  rw [List.map_map, List.map_map]
  rfl

/-! ### Dates and pages -/

/-- The attributes with one property only. -/
def officeSingle : List (String × Nat) := [("creation_date", 12), ("last_modification", 13), ("nb_page", 14)]

theorem items_single (cfg : Config) (env : Env) (decode : Option String → Bytes → Text) (k : String) (i : Nat) (hk : (k, i) ∈ officeSingle) (l : List Property) :
    (l.filterMap (officeItem cfg env decode false)).filter (fun q => decide (q.1 = k)) = (l.filter fun p => p.id = i).filterMap (officeItem cfg env decode false) := by
  rw [List.filter_filterMap, List.filterMap_filter]
  refine List.filterMap_congr fun p _ => ?_
  have hattr : (p.id, k) ∈ officeAttrs false ↔ p.id = i := by
    simp only [officeSingle, List.mem_cons, List.not_mem_nil, or_false, Prod.mk.injEq] at hk
    rcases hk with ⟨rfl, rfl⟩ | ⟨rfl, rfl⟩ | ⟨rfl, rfl⟩ <;> simp [officeAttrs]
  have hc : k ≠ "comment" := by
    simp only [officeSingle, List.mem_cons, List.not_mem_nil, or_false, Prod.mk.injEq] at hk
    rcases hk with ⟨rfl, rfl⟩ | ⟨rfl, rfl⟩ | ⟨rfl, rfl⟩ <;> decide
  have key : ∀ q, officeItem cfg env decode false p = some q → (q.1 = k ↔ p.id = i) := by
    intro q hq
    rw [← hattr, ← office_attr]
    unfold officeItem at hq
    split at hq
    · obtain ⟨t, -, hq⟩ := Option.bind_eq_some_iff.1 hq
      unfold Ole2.assigned at hq
      split at hq
      · cases hq
      · split at hq
        · rename_i k' hk'
          split at hq
          · cases hq
          · injection hq with hq
            subst hq
            rw [hk', Option.some.injEq]
        · rename_i hk'
          split at hq
          · cases hq
          · injection hq with hq
            subst hq
            rw [hk']
            exact ⟨fun e => absurd e.symm hc, fun e => by cases e⟩
    · cases hq
  cases ho : officeItem cfg env decode false p with
  | none => simp
  | some q =>
    by_cases hi : p.id = i
    · rw [Option.filter_some_pos (by simpa using (key q ho).2 hi)]
      simp [hi]
    · rw [Option.filter_some_neg (by simpa using fun e => hi ((key q ho).1 e))]
      simp [hi]

theorem items_doc (cfg : Config) (env : Env) (decode : Option String → Bytes → Text) (k : String) (i : Nat) (hk : (k, i) ∈ officeSingle) (l : List Property) :
    (l.filterMap (officeItem cfg env decode true)).filter (fun q => decide (q.1 = k)) = [] := by
  rw [List.filter_eq_nil_iff]
  intro q hq e
  obtain ⟨p, -, hq⟩ := List.mem_filterMap.1 hq
  have e : q.1 = k := by simpa using e
  have hc : k ≠ "comment" ∧ k ≠ "title" ∧ k ≠ "author" := by
    simp only [officeSingle, List.mem_cons, List.not_mem_nil, or_false, Prod.mk.injEq] at hk
    rcases hk with ⟨rfl, rfl⟩ | ⟨rfl, rfl⟩ | ⟨rfl, rfl⟩ <;> decide
  unfold officeItem at hq
  split at hq
  · obtain ⟨t, -, hq⟩ := Option.bind_eq_some_iff.1 hq
    unfold Ole2.assigned at hq
    split at hq
    · cases hq
    · split at hq
      · rename_i k' hk'
        split at hq
        · cases hq
        · injection hq with hq
          subst hq
          have := (office_attr true p.id k').1 hk'
          simp only [officeAttrs, if_true, List.mem_cons, List.not_mem_nil, or_false, Prod.mk.injEq] at this
          rcases this with ⟨-, h⟩ | ⟨-, h⟩
          · exact hc.2.1 (e ▸ h)
          · exact hc.2.2 (e ▸ h)
      · split at hq
        · cases hq
        · injection hq with hq
          subst hq
          exact hc.1 e.symm
  · cases hq

theorem single_core (cfg : Config) (env : Env) (hw : Writes env) (decode : Option String → Bytes → Text) (doc : Option Section) (word : Option Bool) (sum : Option Section)
    (hd : ∀ s ∈ doc, OfficeSection decode true s) (hs : ∀ s ∈ sum, OfficeSection decode false s) (k : String) (i : Nat) (hk : (k, i) ∈ officeSingle) (d0 : Data)
    (hd0 : (registerAllItems env).find? (fun d => d.key = k) = some d0) :
    toldFor (Ole2.extract cfg env decode doc word sum) k =
      ((((propsOf sum).filter fun p => p.id = i).filterMap (officeItem cfg env decode false)).foldl (fun vs p => addVals cfg env k p.2 vs) []).map Item.value := by
  obtain ⟨g, h1, h3⟩ := office_core cfg env hw decode doc word sum hd hs
  have hc : k ≠ "comment" := by
    simp only [officeSingle, List.mem_cons, List.not_mem_nil, or_false, Prod.mk.injEq] at hk
    rcases hk with ⟨rfl, rfl⟩ | ⟨rfl, rfl⟩ | ⟨rfl, rfl⟩ <;> decide
  have hword : (word.toList.map fun b => (("comment", .value (.text (wordComment b))) : String × Arg)).filter (fun q => decide (q.1 = k)) = [] := by
    rw [List.filter_eq_nil_iff]
    intro q hq e
    obtain ⟨b, -, rfl⟩ := List.mem_map.1 hq
    exact hc (by simpa using e : "comment" = k).symm
  rw [h1, told_filled env _ g k d0 hd0, h3, valsFor, officeItems, List.filter_append, List.filter_append, hword, List.nil_append, items_doc cfg env decode k i hk, List.nil_append,
    items_single cfg env decode k i hk]

/-- The date told for a number of 100 nanoseconds since 1601. -/
def officeDate (n : Nat) : List Metadata.Value :=
  match Hachoir.Time.timestampWin64 n with
  | .ok d => if dateTold d then [.datetime d none] else []
  | .error _ => []

theorem date_moment (n : Nat) : momentTold (Ole2.timeValue n) = officeDate n := by
  unfold Ole2.timeValue officeDate
  cases Hachoir.Time.timestampWin64 n <;> rfl

/-- **C167.** The dates of creation and of the last change are those of the summary, if they are in the years told. -/
theorem C167_dates_partial (cfg : Config) (env : Env) (hw : Writes env) (decode : Option String → Bytes → Text) (doc : Option Section) (word : Option Bool) (sum : Option Section)
    (hd : ∀ s ∈ doc, OfficeSection decode true s) (hs : ∀ s ∈ sum, OfficeSection decode false s) (p : Property) (n : Nat) (hv : p.content = .value (.time n)) :
    ((propsOf sum).filter (fun p => p.id = 12) = [p] → toldFor (Ole2.extract cfg env decode doc word sum) "creation_date" = officeDate n) ∧
    ((propsOf sum).filter (fun p => p.id = 13) = [p] → toldFor (Ole2.extract cfg env decode doc word sum) "last_modification" = officeDate n) := by
  constructor
  · intro hf
    have hi : p.id = 12 := by
      have : p ∈ (propsOf sum).filter (fun p => p.id = 12) := by rw [hf]; exact List.mem_cons_self ..
      simpa using (List.mem_filter.1 this).2
    have e : officeItem cfg env decode false p = some ("creation_date", .value (Ole2.timeValue n)) := by
      unfold officeItem
      rw [hv, hi]
      rfl
    rw [single_core cfg env hw decode doc word sum hd hs "creation_date" 12 (by decide) _ (reg_creation env), hf, List.filterMap_cons_some e]
    exact (moment_vals cfg env hw _ (.inl rfl) _ (time_moment n)).trans (date_moment n)
  · intro hf
    have hi : p.id = 13 := by
      have : p ∈ (propsOf sum).filter (fun p => p.id = 13) := by rw [hf]; exact List.mem_cons_self ..
      simpa using (List.mem_filter.1 this).2
    rw [single_core cfg env hw decode doc word sum hd hs "last_modification" 13 (by decide) _ (reg_last env), hf]
    by_cases h0 : n = 0
    · subst h0
      have e : officeItem cfg env decode false p = none := by
        unfold officeItem
        rw [hv, hi]
        rfl
      rw [List.filterMap_cons_none e]
      have : officeDate 0 = [] := by decide +kernel
      rw [this]
      rfl
    · have e : officeItem cfg env decode false p = some ("last_modification", .value (Ole2.timeValue n)) := by
        unfold officeItem
        rw [hv, hi]
        show (if "last_modification" = "last_modification" ∧ (n == 0) = true then none else some ("last_modification", Arg.value (Ole2.timeValue n))) = _
        rw [if_neg (by simpa using h0)]
      rw [List.filterMap_cons_some e]
      exact (moment_vals cfg env hw _ (.inr rfl) _ (time_moment n)).trans (date_moment n)

/-- **C167.** The number of pages told is the one of the summary, from 1 to 20000. -/
theorem C167_pages_partial (cfg : Config) (env : Env) (hw : Writes env) (decode : Option String → Bytes → Text) (doc : Option Section) (word : Option Bool) (sum : Option Section)
    (hd : ∀ s ∈ doc, OfficeSection decode true s) (hs : ∀ s ∈ sum, OfficeSection decode false s) (p : Property) (n : Nat) (hv : p.content = .value (.num n))
    (hf : (propsOf sum).filter (fun p => p.id = 14) = [p]) :
    toldFor (Ole2.extract cfg env decode doc word sum) "nb_page" = if 1 ≤ n ∧ n ≤ 20000 then [.num (.int n)] else [] := by
  have hi : p.id = 14 := by
    have : p ∈ (propsOf sum).filter (fun p => p.id = 14) := by rw [hf]; exact List.mem_cons_self ..
    simpa using (List.mem_filter.1 this).2
  have e : officeItem cfg env decode false p = some ("nb_page", .value (.num (.int n))) := by
    unfold officeItem
    rw [hv, hi]
    rfl
  rw [single_core cfg env hw decode doc word sum hd hs "nb_page" 14 (by decide) _ (reg_page env), hf, List.filterMap_cons_some e, List.filterMap_nil, List.foldl_cons, List.foldl_nil]
  have ha : ({ key := "nb_page", priority := 202, description := "Nb page", filter := some (.number (some (.int 1)) (some (.int 20000))), plainText := Metadata.plainText env } : Data).add cfg (.value (.num (.int n))) =
      .ok { key := "nb_page", priority := 202, description := "Nb page", filter := some (.number (some (.int 1)) (some (.int 20000))), plainText := Metadata.plainText env,
            values := if decide (1 ≤ n ∧ n ≤ 20000) then [⟨.num (.int n), Metadata.plainText env (.num (.int n))⟩] else [] } := by
    have hfo : Filter.call (.number (some (.int 1)) (some (.int 20000))) (.num (.int n)) = .ok (decide (1 ≤ n ∧ n ≤ 20000)) := number_filter 1 20000 n
    generalize decide (1 ≤ n ∧ n ≤ 20000) = b at hfo
    rw [Data.add, Data.candidate]
    simp only [Data.convert, bind, Except.bind, Data.typeOk, Bool.not_true, Bool.false_eq_true, if_false, contains, Data.filterOk, hfo]
    cases b <;> rfl
  unfold addVals
  rw [reg_page]
  simp only
  rw [ha]
  by_cases hr : 1 ≤ n ∧ n ≤ 20000
  · rw [if_pos hr]
    simp only [decide_eq_true hr, if_true]
    rfl
  · rw [if_neg hr]
    simp only [decide_eq_false hr, Bool.false_eq_true, if_false]
    rfl

/-! ### Comments -/

/-- The names of the properties ([MS-OLEPS] and [MS-OSHARED]; as the program writes them). -/
def officeNames (doc : Bool) : List (Nat × String) :=
  (if doc then
    [(2, "Category"), (3, "PresentationFormat"), (4, "NumBytes"), (5, "NumLines"), (6, "NumParagraphs"), (7, "NumSlides"), (8, "NumNotes"), (9, "NumHiddenSlides"), (10, "NumMMClips"), (11, "Scale"),
      (12, "HeadingPairs"), (13, "DocumentParts"), (14, "Manager"), (15, "Company"), (16, "LinksDirty")] ++ (List.range 7).map fun i => (17 + i, "DocSumInfo_" ++ toString (17 + i))
  else
    [(2, "Title"), (3, "Subject"), (4, "Author"), (5, "Keywords"), (6, "Comments"), (7, "Template"), (8, "LastSavedBy"), (9, "RevisionNumber"), (10, "TotalEditingTime"), (11, "LastPrinted"),
      (12, "CreateTime"), (13, "LastSavedTime"), (14, "NumPages"), (15, "NumWords"), (16, "NumCharacters"), (17, "Thumbnail"), (18, "AppName"), (19, "Security")]) ++
  [(0, "Dictionary"), (1, "CodePage"), (2 ^ 31, "LOCALE_SYSTEM_DEFAULT"), (2 ^ 31 + 3, "CASE_SENSITIVE")]

/-- The name of a property: its number if it has none. -/
def officeName (doc : Bool) (id : Nat) : Text := (((officeNames doc).find? fun e => e.1 = id).map fun e => txt e.2).getD (Metadata.decimal id)

/-- The value of a property in words. -/
def officeShown (cfg : Config) (env : Env) (decode : Option String → Bytes → Text) : Summary.Value → Text
  | .num n => Metadata.decimal n
  | .flag true => txt "True"
  | .flag false => txt "False"
  | .text c b => normalizeString cfg (decode c b)
  | .wide b => normalizeString cfg (decode (some "UTF-16-LE") b)
  | .time n => env.str (Ole2.timeValue n)
  | .span n => env.str (Ole2.spanValue n)

/-- The comment for a property that has no attribute. -/
def otherComment (cfg : Config) (env : Env) (decode : Option String → Bytes → Text) (doc : Bool) (id : Nat) (v : Summary.Value) : Option Text :=
  if officeName doc id ∈ [txt "TotalEditingTime", txt "LastPrinted"] ∧ (v = .time 0 ∨ v = .span 0) then none
  else some (officeName doc id ++ txt ": " ++ officeShown cfg env decode v)

/-- The comment for a property: none for the code page and for blank texts, the text itself for "Comments". -/
def officeComment (cfg : Config) (env : Env) (decode : Option String → Bytes → Text) (doc : Bool) (p : Property) : Option Text :=
  match p.content with
  | .value v =>
    if p.id = 1 ∨ (officeText decode (.value v)).any (fun t => normalizeString cfg t = []) then none
    else if (p.id, "comment") ∈ officeAttrs doc then (officeText decode (.value v)).map (normalizeString cfg)
    else if p.id ∈ (officeAttrs doc).map Prod.fst then none
    else otherComment cfg env decode doc p.id v
  | _ => none

theorem lookup_find (l : List (Nat × String)) (id : Nat) : l.lookup id = (l.find? fun e => e.1 = id).map (·.2) := by
  induction l with
  | nil => rfl
  | cons e l ih =>
    obtain ⟨a, b⟩ := e
    by_cases h : a = id
    · subst h
      simp
    · rw [List.lookup_cons, List.find?_cons, show (id == a) = false by simpa using fun e => h e.symm, show decide (a = id) = false by simpa using h]
      exact ih

theorem display_name (doc : Bool) (id : Nat) : Ole2.display doc id = officeName doc id := by
  have e : (if doc then Ole2.documentNames else Ole2.componentNames) ++ Ole2.commonNames = officeNames doc := by
    cases doc <;> decide +kernel
  unfold Ole2.display officeName
  rw [e, lookup_find]
  cases (officeNames doc).find? fun e => decide (e.1 = id) <;> rfl

theorem null_iff (v : Summary.Value) : Ole2.isNull v = true ↔ v = .time 0 ∨ v = .span 0 := by
  cases v <;> simp [Ole2.isNull]

theorem item_comment (cfg : Config) (env : Env) (decode : Option String → Bytes → Text) (doc : Bool) (p : Property) (h : OfficeTyped decode doc p) :
    (officeItem cfg env decode doc p).filter (fun q => decide (q.1 = "comment")) = (officeComment cfg env decode doc p).map fun t => ("comment", .value (.text t)) := by
  unfold officeItem officeComment
  cases hv : p.content with
  | nothing => rfl
  | items l => rfl
  | value v =>
    simp only
    by_cases hb : (officeText decode (.value v)).any (fun t => decide (normalizeString cfg t = [])) = true
    · rw [if_pos (.inr hb)]
      rw [text_content] at hb
      unfold Ole2.normalized
      cases ht : Ole2.textOf decode v with
      | none => rw [ht] at hb; cases hb
      | some t =>
        rw [ht] at hb
        simp only
        rw [if_pos (by simpa using hb)]
        rfl
    · obtain ⟨t, ht, hshown⟩ : ∃ t, Ole2.normalized cfg decode v = some t ∧ t = (officeText decode (.value v)).map (normalizeString cfg) := by
        rw [text_content] at hb ⊢
        unfold Ole2.normalized
        cases ht : Ole2.textOf decode v with
        | none => exact ⟨none, rfl, rfl⟩
        | some t =>
          rw [ht] at hb
          simp only
          rw [if_neg (by simpa using hb)]
          exact ⟨_, rfl, rfl⟩
      have hsh : t.getD (Ole2.shown env decode v) = officeShown cfg env decode v := by
        rw [hshown, text_content]
        cases v with
        | flag b => cases b <;> rfl
        | _ => rfl
      rw [ht, Option.bind_some, Ole2.assigned]
      by_cases h1 : p.id = 1
      · rw [if_pos h1, if_pos (.inl h1)]
        rfl
      · have h1b : ¬ (p.id = 1 ∨ (officeText decode (.value v)).any (fun t => decide (normalizeString cfg t = [])) = true) := by
          rintro (e | e)
          exacts [h1 e, hb e]
        rw [if_neg h1, if_neg h1b]
        cases ha : Ole2.attrOf doc p.id with
        | none =>
          simp only
          have hno : ∀ k, (p.id, k) ∉ officeAttrs doc := by
            intro k hk
            rw [(office_attr doc p.id k).2 hk] at ha
            cases ha
          have hno' : p.id ∉ (officeAttrs doc).map Prod.fst := by
            intro e
            obtain ⟨⟨i, k⟩, hk, e⟩ := List.mem_map.1 e
            exact hno k (by rw [← e]; exact hk)
          rw [if_neg (hno _), if_neg hno', otherComment, display_name, hsh]
          by_cases hz : officeName doc p.id ∈ [txt "TotalEditingTime", txt "LastPrinted"] ∧ (v = .time 0 ∨ v = .span 0)
          · rw [if_pos hz, if_pos ⟨by simpa using hz.1, (null_iff v).2 hz.2⟩]
            rfl
          · rw [if_neg hz, if_neg (fun e => hz ⟨by simpa using e.1, (null_iff v).1 e.2⟩)]
            rfl
        | some k =>
          have hm := (office_attr doc p.id k).1 ha
          simp only
          by_cases hk : k = "comment"
          · subst hk
            have hne : ¬ ("comment" = "last_modification" ∧ Ole2.isNull v = true) := fun e => absurd e.1 (by decide)
            rw [if_pos hm, if_neg hne]
            have hty := h _ v hm hv
            rw [hv] at hty
            rcases hty with ⟨-, h2⟩ | ⟨h2, -⟩ | ⟨h2, -⟩
            · obtain ⟨u, hu⟩ := Option.isSome_iff_exists.1 h2
              rw [hshown, hu]
              rfl
            · exact absurd h2 (by decide)
            · exact absurd h2 (by decide)
          · have hn : (p.id, "comment") ∉ officeAttrs doc := by
              intro e
              rw [← office_attr, ha, Option.some.injEq] at e
              exact hk e
            rw [if_neg hn, if_pos (List.mem_map.2 ⟨_, hm, rfl⟩)]
            by_cases hz : k = "last_modification" ∧ Ole2.isNull v = true
            · rw [if_pos hz]
              rfl
            · rw [if_neg hz]
              exact Option.filter_some_neg (by simpa using hk)

/-- **C167.** The comments told are, in this order, those for the properties of the document summary, whether the Word document is encrypted, and those for the properties of the summary. -/
theorem C167_comments_partial (cfg : Config) (env : Env) (hw : Writes env) (decode : Option String → Bytes → Text) (doc : Option Section) (word : Option Bool) (sum : Option Section)
    (hd : ∀ s ∈ doc, OfficeSection decode true s) (hs : ∀ s ∈ sum, OfficeSection decode false s) (ts : List Text)
    (ht : ts = (propsOf doc).filterMap (officeComment cfg env decode true) ++ word.toList.map wordComment ++ (propsOf sum).filterMap (officeComment cfg env decode false))
    (hb : ∀ t ∈ ts, normalizeString cfg t ≠ []) (hp : (ts.map (toldName cfg)).Pairwise TextsApart) :
    toldFor (Ole2.extract cfg env decode doc word sum) "comment" = ts.map fun t => .text (toldName cfg t) := by
  obtain ⟨g, h1, h3⟩ := office_core cfg env hw decode doc word sum hd hs
  obtain ⟨d0, hd0, -⟩ := text_attr env "comment" (by decide)
  have key : ∀ (b : Bool) (s : Option Section), (∀ x ∈ s, OfficeSection decode b x) →
      ((propsOf s).filterMap (officeItem cfg env decode b)).filter (fun q => decide (q.1 = "comment")) = ((propsOf s).filterMap (officeComment cfg env decode b)).map fun t => ("comment", .value (.text t)) := by
    intro b s h
    rw [List.filter_filterMap, List.map_filterMap]
    exact List.filterMap_congr fun p hp => item_comment cfg env decode b p (typed_props decode b s h p hp)
  have hword : (word.toList.map fun b => (("comment", .value (.text (wordComment b))) : String × Arg)).filter (fun q => decide (q.1 = "comment")) =
      (word.toList.map wordComment).map fun t => ("comment", .value (.text t)) := by
    rw [List.filter_eq_self.2 (fun q hq => by obtain ⟨b, -, rfl⟩ := List.mem_map.1 hq; rfl), List.map_map]
    rfl
  rw [h1, told_filled env _ g _ d0 hd0, h3, valsFor, officeItems, List.filter_append, List.filter_append, hword, key true doc hd, key false sum hs, ← List.map_append, ← List.map_append, ← List.append_assoc, ← ht]
  have := fold_apart cfg env "comment" (by decide) ts [] hb (by simpa using hp)
  rw [List.map_nil, List.nil_append] at this
  refine (congrArg (List.map Item.value) this).trans ?_
  rw [List.map_map, List.map_map]
  rfl

/-! ### What is told wrong -/

/-- A text as content of a property. -/
def plainContent (b : Bytes) : Content := .value (.text (some "ISO-8859-1") b)

/-- A section with one text. -/
theorem one_section (decode : Option String → Bytes → Text) (doc : Bool) (id n : Nat) (b : Bytes) (hn : 0 < n) (hid : ∀ k, (id, k) ∈ officeAttrs doc → k ∈ ["title", "author", "comment", "producer"]) :
    OfficeSection decode doc ⟨16 + n, [⟨id, 16, n, plainContent b⟩]⟩ :=
  ⟨⟨16 + n, Nat.le_refl _, rfl, hn, rfl⟩, by
    intro p hp k v hk _
    rw [List.mem_singleton] at hp
    subst hp
    exact .inl ⟨hid k hk, rfl⟩⟩

/-- **C167 (disagreement).**  The format of a presentation (property 3 of the document summary) is told as its title. -/
theorem C167_format (cfg : Config) (env : Env) (hw : Writes env) (decode : Option String → Bytes → Text) (b : Bytes) (n : Nat) (hn : 0 < n) (hb : normalizeString cfg (decode (some "ISO-8859-1") b) ≠ []) :
    officeName true 3 = txt "PresentationFormat" ∧
    toldFor (Ole2.extract cfg env decode (some ⟨16 + n, [⟨3, 16, n, plainContent b⟩]⟩) none none) "title" = [.text (toldName cfg (decode (some "ISO-8859-1") b))] := by
  have e : officeTexts cfg decode true "title" [⟨3, 16, n, plainContent b⟩] = [decode (some "ISO-8859-1") b] := by
    have : (officeText decode (plainContent b)).filter (fun t => normalizeString cfg t ≠ []) = some (decode (some "ISO-8859-1") b) := Option.filter_some_pos (by simpa using hb)
    rw [officeTexts, List.filterMap_cons_some (b := decode (some "ISO-8859-1") b), List.filterMap_nil]
    rw [if_pos (show (3, "title") ∈ officeAttrs true by decide)]
    exact this
  refine ⟨by decide +kernel, ?_⟩
  have := C167_texts_partial cfg env hw decode (some ⟨16 + n, [⟨3, 16, n, plainContent b⟩]⟩) none none (fun s hs => by
    cases hs
    exact one_section decode true 3 n b hn (by
      intro k hk
      simp [officeAttrs] at hk
      simp [hk])) (by simp) "title" (by decide) (by
    show ((officeTexts cfg decode true "title" [⟨3, 16, n, plainContent b⟩] ++ []).map (toldName cfg)).Pairwise TextsApart
    rw [e]
    simp)
  rw [this]
  show (officeTexts cfg decode true "title" [⟨3, 16, n, plainContent b⟩] ++ []).map _ = _
  rw [e]
  rfl

/-- **C167 (disagreement).**  A title behind a code page and two other properties is not told (the 6 bytes of the code page are padded to 8: `C166_gap_lost`). -/
theorem C167_lost (cfg : Config) (env : Env) (decode : Option String → Bytes → Text) (doc : Bool) (i j : Nat) (a b c d : Content) (n m o : Nat) (hn : 0 < n) (hm : 0 < m) (ho : 0 < o) :
    Ole2.told cfg env decode doc ⟨48 + n + m + o, [⟨1, 40, 6, a⟩, ⟨i, 48, n, b⟩, ⟨j, 48 + n, m, c⟩, ⟨2, 48 + n + m, o, d⟩]⟩ ⟨2, 48 + n + m, o, d⟩ = none := by
  unfold Ole2.told
  rw [C166_gap_lost i j 2 a b c d n m o hn hm ho]

/-- **C167 (disagreement).**  An author and a title, the title written first: the author is not told, and the title told is the author. -/
theorem C167_swapped (cfg : Config) (env : Env) (decode : Option String → Bytes → Text) (author title : Bytes) (n m : Nat) (hn : 0 < n) (hm : 0 < m)
    (hb : normalizeString cfg (decode (some "ISO-8859-1") author) ≠ []) :
    toldFor (Ole2.extract cfg env decode none none (some ⟨24 + n + m, [⟨4, 24 + n, m, plainContent author⟩, ⟨2, 24, n, plainContent title⟩]⟩)) "title" = [.text (toldName cfg (decode (some "ISO-8859-1") author))] ∧
    toldFor (Ole2.extract cfg env decode none none (some ⟨24 + n + m, [⟨4, 24 + n, m, plainContent author⟩, ⟨2, 24, n, plainContent title⟩]⟩)) "author" = [] := by
  obtain ⟨e1, e2⟩ := C166_reversed 4 2 (plainContent author) (plainContent title) n m hn hm
  have t1 : Ole2.told cfg env decode false ⟨24 + n + m, [⟨4, 24 + n, m, plainContent author⟩, ⟨2, 24, n, plainContent title⟩]⟩ ⟨4, 24 + n, m, plainContent author⟩ = none := by
    unfold Ole2.told
    rw [e1]
  have t2 : Ole2.told cfg env decode false ⟨24 + n + m, [⟨4, 24 + n, m, plainContent author⟩, ⟨2, 24, n, plainContent title⟩]⟩ ⟨2, 24, n, plainContent title⟩ =
      some ("title", .value (.text (normalizeString cfg (decode (some "ISO-8859-1") author)))) := by
    unfold Ole2.told
    rw [e2]
    show (if normalizeString cfg (decode (some "ISO-8859-1") author) = [] then none else some (some (normalizeString cfg (decode (some "ISO-8859-1") author)))).bind _ = _
    rw [if_neg hb]
    rfl
  obtain ⟨g, h1, -, h3⟩ := run_tame cfg env (txt "Metadata") [("title", .value (.text (normalizeString cfg (decode (some "ISO-8859-1") author))))] (fun _ => []) (by simp) (fun p hp => by
    rw [List.mem_singleton] at hp
    subst hp
    exact ⟨single_ne _ _ (by decide), tame_text cfg env "title" (by decide) _⟩)
  have hx : Ole2.extract cfg env decode none none (some ⟨24 + n + m, [⟨4, 24 + n, m, plainContent author⟩, ⟨2, 24, n, plainContent title⟩]⟩) = ⟨txt "Metadata", filled env g⟩ := by
    rw [← h1, filled_nil]
    show (Metadata.new env (txt "Metadata")).run cfg _ = _
    rw [List.filterMap_cons_none t1, List.filterMap_cons_some t2, List.filterMap_nil]
    rfl
  obtain ⟨d0, hd0, -⟩ := text_attr env "title" (by decide)
  obtain ⟨d1, hd1, -⟩ := text_attr env "author" (by decide)
  rw [hx, told_filled env _ g _ d0 hd0, told_filled env _ g _ d1 hd1, h3, h3]
  refine ⟨?_, rfl⟩
  have := add_apart cfg env "title" (by decide) (normalizeString cfg (decode (some "ISO-8859-1") author)) (by rw [normalize_twice]; exact hb) [] (by simp)
  refine (congrArg (List.map Item.value) this).trans ?_
  show [Metadata.Value.text (toldName cfg (normalizeString cfg (decode (some "ISO-8859-1") author)))] = _
  rw [toldName, normalize_twice]
  rfl

/-! ### Examples -/

/-- The texts of a decoder that takes bytes as characters. -/
def bytesAsText (_ : Option String) (b : Bytes) : Text := b.map UInt8.toNat

/-- Title, author, date and pages. -/
def exampleSummary : Section := ⟨88, [⟨2, 40, 12, plainContent "Plan".toUTF8.toList⟩, ⟨4, 52, 12, plainContent "Ann".toUTF8.toList⟩, ⟨12, 64, 12, .value (.time 126227808000000000)⟩, ⟨14, 76, 8, .value (.num 7)⟩]⟩

theorem example_section : OfficeSection bytesAsText false exampleSummary :=
  ⟨⟨84, by decide, by refine ⟨rfl, by decide, rfl, by decide, rfl, by decide, rfl, by decide, rfl⟩⟩, by
    intro p hp k v hk hv
    simp only [exampleSummary, List.mem_cons, List.not_mem_nil, or_false] at hp
    rcases hp with rfl | rfl | rfl | rfl <;> simp [officeAttrs, officeText, plainContent] at hk hv ⊢ <;> subst hk hv <;> simp⟩

example (cfg : Config) (env : Env) (hw : Writes env) :
    toldFor (Ole2.extract cfg env bytesAsText none none (some exampleSummary)) "nb_page" = [.num (.int 7)] :=
  C167_pages_partial cfg env hw bytesAsText none none (some exampleSummary) (by simp) (by rintro s ⟨⟩; exact example_section) ⟨14, 76, 8, .value (.num 7)⟩ 7 rfl rfl

/-- 2001-01-01. -/
example (cfg : Config) (env : Env) (hw : Writes env) :
    toldFor (Ole2.extract cfg env bytesAsText none none (some exampleSummary)) "creation_date" = [.datetime ⟨2001, 1, 1, 0, 0, 0, 0⟩ none] :=
  ((C167_dates_partial cfg env hw bytesAsText none none (some exampleSummary) (by simp) (by rintro s ⟨⟩; exact example_section) ⟨12, 64, 12, .value (.time 126227808000000000)⟩ _ rfl).1 rfl).trans (by decide +kernel)

theorem example_texts : officeTexts {} bytesAsText false "title" exampleSummary.props = [txt "Plan"] := by decide +kernel

example (env : Env) (hw : Writes env) : toldFor (Ole2.extract {} env bytesAsText none none (some exampleSummary)) "title" = [.text (toldName {} (txt "Plan"))] := by
  have e : officeTexts {} bytesAsText true "title" (propsOf none) ++ officeTexts {} bytesAsText false "title" (propsOf (some exampleSummary)) = [txt "Plan"] := example_texts
  have := C167_texts_partial {} env hw bytesAsText none none (some exampleSummary) (by simp) (by rintro s ⟨⟩; exact example_section) "title" (by decide) (by rw [e]; simp)
  rw [e] at this
  exact this

/-- A Word document without summary. -/
example (env : Env) (hw : Writes env) : toldFor (Ole2.extract {} env bytesAsText none (some true) none) "comment" = [.text (toldName {} (txt "Encrypted: True"))] :=
  C167_comments_partial {} env hw bytesAsText none (some true) none (by simp) (by simp) [wordComment true] rfl (by decide +kernel) (by simp)

end Hachoir.Props
