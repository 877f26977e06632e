import Verif.Metadata.Ogg
import Verif.Props.NamedDate

/-!
# C160: what is told of Ogg files
-/

namespace Hachoir.Props
open Hachoir Hachoir.Metadata Hachoir.Core Hachoir.Metadata.Archive Hachoir.Metadata.Ogg _root_.Props

/-! ### Specification -/

/-- The names of comments that are told as an attribute. -/
def vorbisNames (attr : String) : List String :=
  if attr = "artist" then ["ARTIST"] else if attr = "album" then ["ALBUM"] else if attr = "title" then ["TITLE"]
  else if attr = "track_number" then ["TRACKNUMBER"] else if attr = "track_total" then ["TRACKTOTAL"]
  else if attr = "producer" then ["ENCODER"] else if attr = "location" then ["LOCATION"]
  else if attr = "creation_date" then ["DATE"] else if attr = "organization" then ["ORGANIZATION"]
  else if attr = "music_genre" then ["GENRE"] else if attr = "music_composer" then ["COMPOSER"]
  else if attr = "copyright" then ["LICENSE"] else if attr = "url" then ["WWW", "WOAF"]
  else if attr = "comment" then ["", "COMMENT", "DESCRIPTION"] else []

/-- The text is a comment `name=value` told as an attribute. -/
def IsComment (upper : Text → Text) (t : Text) (attr : String) (v : Text) : Prop :=
  ∃ key, t = key ++ 61 :: v ∧ 61 ∉ key ∧ ∃ s ∈ vorbisNames attr, upper key = txt s

/-- The attributes that are texts. -/
def textAttrs : List String := ["artist", "album", "title", "producer", "location", "organization", "music_genre", "music_composer", "copyright", "url", "comment", "author", "version"]

/-- A value that can be compared with others: the time zone is less than a day. -/
def Good (v : Value) : Prop := ∀ t z, v = .datetime t (some z) → -24 < z ∧ z < 24

/-- Reading the text as a date does not give one with a time zone of a day or more. -/
def GoodDate (env : Env) (t : Text) : Prop := ∀ v x, env.parseDatetime t = .value v ∨ env.parseDatetime t = .pair v x → Good v

/-- Functions that make texts do not raise for days. -/
def WritesDays (env : Env) : Prop := ∀ y m d, ∃ t, env.handler "humanDatetime" (.date y m d) = .ok t

/-! ### Adding values -/

theorem good_eq (v w : Value) (hv : Good v) (hw : Good w) : ∃ b, v.eq w = .ok b := by
  have hu : ∀ z : Int, -24 < z ∧ z < 24 → utcOffset z = .ok z := fun z h => by rw [utcOffset, if_pos h]
  cases v <;> cases w <;> try exact ⟨_, rfl⟩
  case datetime.datetime a z b y =>
    cases z with
    | none =>
      cases y with
      | none => exact ⟨_, rfl⟩
      | some y => exact ⟨false, by simp [Value.eq, bind, Except.bind, hu y (hw _ _ rfl)]⟩
    | some z =>
      cases y with
      | none => exact ⟨false, by simp [Value.eq, bind, Except.bind, hu z (hv _ _ rfl)]⟩
      | some y => exact ⟨decide (instant a z = instant b y), by simp [Value.eq, bind, Except.bind, hu z (hv _ _ rfl), hu y (hw _ _ rfl)]⟩
  all_goals exact ⟨false, by simp [Value.eq]⟩

theorem good_contains (v : Value) (hv : Good v) : ∀ l : List Item, (∀ i ∈ l, Good i.value) → ∃ b, contains v l = .ok b
  | [], _ => ⟨false, rfl⟩
  | i :: r, h => by
    obtain ⟨b, hb⟩ := good_eq v i.value hv (h i (List.mem_cons_self ..))
    obtain ⟨c, hc⟩ := good_contains v hv r fun j hj => h j (List.mem_cons_of_mem _ hj)
    simp only [contains, bind, Except.bind, hb]
    cases b
    · exact ⟨c, by simpa using hc⟩
    · exact ⟨true, rfl⟩

theorem good_filter (d : Data) (v : Value) (hv : Good v) : ∃ b, d.filterOk v = .ok b := by
  have hu : ∀ z : Int, -24 < z ∧ z < 24 → utcOffset z = .ok z := fun z h => by rw [utcOffset, if_pos h]
  rw [Data.filterOk]
  cases d.filter with
  | none => exact ⟨_, rfl⟩
  | some f =>
    cases f <;> cases v <;> try exact ⟨_, rfl⟩
    case datetime.datetime t z =>
      cases z with
      | none => exact ⟨_, rfl⟩
      | some z =>
        simp only [Filter.call, bind, Except.bind, hu z (hv _ _ rfl)]
        exact ⟨_, rfl⟩

theorem mem_placeText (t : Text) (item j : Item) : ∀ l : List Item, j ∈ placeText t item l → j = item ∨ j ∈ l
  | [], h => by simpa [placeText] using h
  | i :: r, h => by
    unfold placeText at h
    split at h
    · split at h
      · rcases List.mem_cons.1 h with h | h
        · exact .inl h
        · exact .inr (List.mem_cons_of_mem _ h)
      · split at h
        · exact .inr h
        · rcases List.mem_cons.1 h with h | h
          · exact .inr (by simp [h])
          · exact (mem_placeText t item j r h).imp_right (List.mem_cons_of_mem _)
    · rcases List.mem_cons.1 h with h | h
      · exact .inr (by simp [h])
      · exact (mem_placeText t item j r h).imp_right (List.mem_cons_of_mem _)

theorem add_good (cfg : Config) (d : Data) (a : Arg) (hv : ∀ i ∈ d.values, Good i.value)
    (hc : d.candidate cfg a = .ok none ∨ ∃ v t, d.candidate cfg a = .ok (some (v, t)) ∧ Good v ∧ ∃ i, d.createItem v t = .ok i) :
    ∃ vs, d.add cfg a = .ok { d with values := vs } ∧ ∀ i ∈ vs, Good i.value := by
  rcases hc with hc | ⟨v, t, hc, hg, i, hi⟩
  · exact ⟨d.values, by rw [Data.add, hc]; rfl, hv⟩
  · obtain ⟨b, hb⟩ := good_contains v hg d.values hv
    obtain ⟨c, hf⟩ := good_filter d v hg
    have hadd : ∃ d', d.add cfg a = .ok d' := by
      rw [Data.add, hc]
      simp only [bind, Except.bind, hb, hf]
      cases b
      · cases c
        · exact ⟨d, rfl⟩
        · simp only [Bool.false_eq_true, if_false, Bool.not_true]
          cases v <;> simp only [hi] <;> exact ⟨_, rfl⟩
      · exact ⟨d, rfl⟩
    obtain ⟨d', hd'⟩ := hadd
    rcases add_cases hd' with ⟨rfl, -⟩ | ⟨w, x, j, h1, -, -, h4, -, h6⟩
    · exact ⟨d'.values, hd', hv⟩
    · rw [hc] at h1
      simp only [Except.ok.injEq, Option.some.injEq, Prod.mk.injEq] at h1
      obtain ⟨rfl, rfl⟩ := h1
      refine ⟨_, by rw [hd', h6], ?_⟩
      have hj : Good j.value := by rw [h4]; exact hg
      intro k hk
      cases v with
      | text u =>
        rcases mem_placeText u j k _ hk with rfl | hk
        · exact hj
        · exact hv k hk
      | _ =>
        simp only [List.mem_append, List.mem_singleton] at hk
        rcases hk with hk | rfl
        · exact hv k hk
        · exact hj

/-- Values after one more assignment to a registered key. -/
def addVals (cfg : Config) (env : Env) (k : String) (a : Arg) (vs : List Item) : List Item :=
  match (registerAllItems env).find? (fun d => d.key = k) with
  | none => vs
  | some d0 =>
    match ({ d0 with values := vs } : Data).add cfg a with
    | .ok d => d.values
    | .error _ => vs

/-- The assignment of a text to the key does not raise. -/
def Tame (cfg : Config) (env : Env) (k : String) (a : Arg) : Prop :=
  ∃ d0, (registerAllItems env).find? (fun d => d.key = k) = some d0 ∧ ∀ vs : List Item,
    ({ d0 with values := vs } : Data).candidate cfg a = .ok none ∨ ∃ v t, ({ d0 with values := vs } : Data).candidate cfg a = .ok (some (v, t)) ∧ Good v ∧ ∃ i, ({ d0 with values := vs } : Data).createItem v t = .ok i

theorem tame_add (cfg : Config) (env : Env) (h : Text) (f : String → List Item) (k : String) (a : Arg) (hs : ∀ k', ∀ i ∈ f k', Good i.value) (ht : Tame cfg env k a) :
    (⟨h, filled env f⟩ : Metadata).addTo cfg k a = .ok ⟨h, filled env (Function.update f k (addVals cfg env k a (f k)))⟩ ∧ ∀ i ∈ addVals cfg env k a (f k), Good i.value := by
  obtain ⟨d0, hd, hc⟩ := ht
  obtain ⟨vs, ha, hg⟩ := add_good cfg { d0 with values := f k } a (hs k) (hc (f k))
  have : addVals cfg env k a (f k) = vs := by
    unfold addVals
    rw [hd]
    simp only
    rw [ha]
  rw [this]
  refine ⟨?_, hg⟩
  rw [Metadata.addTo]
  simp only
  rw [filled, updateKey_map k vs f _ _ d0 (C37_keys env) hd ha]
  rfl

theorem text_attr (env : Env) (k : String) (hk : k ∈ textAttrs) :
    ∃ d0, (registerAllItems env).find? (fun d => d.key = k) = some d0 ∧ (∀ (d : Data) (t : Text), d.type = d0.type → d.typeOk (.text t) = true) ∧ d0.filter = none ∧ d0.conversion = none := by
  simp only [textAttrs, List.mem_cons, List.not_mem_nil, or_false] at hk
  rcases hk with rfl | rfl | rfl | rfl | rfl | rfl | rfl | rfl | rfl | rfl | rfl | rfl | rfl
  · exact ⟨{ key := "artist", priority := 101, description := "Artist", type := some [.str], plainText := Metadata.plainText env }, by simp [registerAllItems], fun d t e => by rw [Data.typeOk, e]; rfl, rfl, rfl⟩
  · exact ⟨{ key := "album", priority := 200, description := "Album", type := some [.str], plainText := Metadata.plainText env }, by simp [registerAllItems], fun d t e => by rw [Data.typeOk, e]; rfl, rfl, rfl⟩
  · exact ⟨{ key := "title", priority := 100, description := "Title", type := some [.str], plainText := Metadata.plainText env }, by simp [registerAllItems], fun d t e => by rw [Data.typeOk, e]; rfl, rfl, rfl⟩
  · exact ⟨{ key := "producer", priority := 901, description := "Producer", type := some [.str], plainText := Metadata.plainText env }, by simp [registerAllItems], fun d t e => by rw [Data.typeOk, e]; rfl, rfl, rfl⟩
  · exact ⟨{ key := "location", priority := 530, description := "Location", type := some [.str], plainText := Metadata.plainText env }, by simp [registerAllItems], fun d t e => by rw [Data.typeOk, e]; rfl, rfl, rfl⟩
  · exact ⟨{ key := "organization", priority := 210, description := "Organization", type := some [.str], plainText := Metadata.plainText env }, by simp [registerAllItems], fun d t e => by rw [Data.typeOk, e]; rfl, rfl, rfl⟩
  · exact ⟨{ key := "music_genre", priority := 203, description := "Music genre", type := some [.str], plainText := Metadata.plainText env }, by simp [registerAllItems], fun d t e => by rw [Data.typeOk, e]; rfl, rfl, rfl⟩
  · exact ⟨{ key := "music_composer", priority := 103, description := "Music composer", type := some [.str], plainText := Metadata.plainText env }, by simp [registerAllItems], fun d t e => by rw [Data.typeOk, e]; rfl, rfl, rfl⟩
  · exact ⟨{ key := "copyright", priority := 601, description := "Copyright", type := some [.str], plainText := Metadata.plainText env }, by simp [registerAllItems], fun d t e => by rw [Data.typeOk, e]; rfl, rfl, rfl⟩
  · exact ⟨{ key := "url", priority := 602, description := "URL", type := some [.str], plainText := Metadata.plainText env }, by simp [registerAllItems], fun d t e => by rw [Data.typeOk, e]; rfl, rfl, rfl⟩
  · exact ⟨{ key := "comment", priority := 902, description := "Comment", type := some [.str], plainText := Metadata.plainText env }, by simp [registerAllItems], fun d t e => by rw [Data.typeOk, e]; rfl, rfl, rfl⟩
  · exact ⟨{ key := "author", priority := 102, description := "Author", type := some [.str], plainText := Metadata.plainText env }, by simp [registerAllItems], fun d t e => by rw [Data.typeOk, e]; rfl, rfl, rfl⟩
  · exact ⟨{ key := "version", priority := 220, description := "Version", plainText := Metadata.plainText env }, by simp [registerAllItems], fun d t e => by rw [Data.typeOk, e], rfl, rfl⟩

theorem tame_text (cfg : Config) (env : Env) (k : String) (hk : k ∈ textAttrs) (t : Text) : Tame cfg env k (.value (.text t)) := by
  obtain ⟨d0, h1, h2, -, h4⟩ := text_attr env k hk
  refine ⟨d0, h1, fun vs => ?_⟩
  by_cases hb : normalizeString cfg t = []
  · exact .inl (by rw [Data.candidate]; simp only [Data.convert, h4, bind, Except.bind, hb, if_true])
  · refine .inr ⟨.text (toldName cfg t), none, ?_, fun _ _ h => (by cases h), ⟨_, rfl⟩⟩
    rw [Data.candidate]
    simp only [Data.convert, h4, bind, Except.bind, if_neg hb, h2, Bool.not_true, Bool.false_eq_true, if_false]
    rfl

theorem tame_none (cfg : Config) (env : Env) (k : String) (hk : k ∈ textAttrs) : Tame cfg env k (.value .none) := by
  obtain ⟨d0, h1, -⟩ := text_attr env k hk
  exact ⟨d0, h1, fun vs => .inl (by rw [Data.candidate])⟩

theorem convInt_cases (t : Text) : convInt t = .nothing ∨ ∃ i, convInt t = .value (.num (.int i)) := by
  unfold convInt
  cases pyInt t with
  | none => exact .inl rfl
  | some i => exact .inr ⟨i, rfl⟩

theorem track_conv (t : Text) : setTrackNumber (.text t) = .nothing ∨ ∃ i, setTrackNumber (.text t) = .value (.num (.int i)) := by
  unfold setTrackNumber
  simp only
  cases splitSlash t with
  | none => exact convInt_cases t
  | some p => exact convInt_cases p.1

theorem reg_track (env : Env) : (registerAllItems env).find? (fun d => d.key = "track_number") =
    some { key := "track_number", priority := 205, description := "Track number", type := some [.int], filter := some (.number (some (.int 1)) (some (.int 999))), conversion := some setTrackNumber, plainText := Metadata.plainText env } := by
  simp [registerAllItems]

theorem reg_total (env : Env) : (registerAllItems env).find? (fun d => d.key = "track_total") =
    some { key := "track_total", priority := 206, description := "Track total", type := some [.int], filter := some (.number (some (.int 1)) (some (.int 999))), conversion := some setTrackTotal, plainText := Metadata.plainText env } := by
  simp [registerAllItems]

theorem tame_track (cfg : Config) (env : Env) (t : Text) : Tame cfg env "track_number" (.value (.text t)) := by
  refine ⟨_, reg_track env, fun vs => ?_⟩
  rcases track_conv t with h | ⟨i, h⟩
  · exact .inl (by rw [Data.candidate]; simp only [Data.convert, h, bind, Except.bind]; rfl)
  · exact .inr ⟨.num (.int i), none, by rw [Data.candidate]; simp only [Data.convert, h, bind, Except.bind]; rfl, fun _ _ h => (by cases h), ⟨_, rfl⟩⟩

theorem tame_total (cfg : Config) (env : Env) (t : Text) : Tame cfg env "track_total" (.value (.text t)) := by
  refine ⟨_, reg_total env, fun vs => ?_⟩
  rcases convInt_cases t with h | ⟨i, h⟩
  · exact .inl (by rw [Data.candidate]; simp only [Data.convert, setTrackTotal, h, bind, Except.bind]; rfl)
  · exact .inr ⟨.num (.int i), none, by rw [Data.candidate]; simp only [Data.convert, setTrackTotal, h, bind, Except.bind]; rfl, fun _ _ h => (by cases h), ⟨_, rfl⟩⟩

theorem tame_date (cfg : Config) (env : Env) (hw : Writes env) (hd : WritesDays env) (t : Text) (ht : GoodDate env t) : Tame cfg env "creation_date" (.value (.text t)) := by
  refine ⟨_, reg_creation env, fun vs => ?_⟩
  have key : ∀ v x, (env.parseDatetime t = .value v ∧ x = none) ∨ (∃ y, env.parseDatetime t = .pair v y ∧ x = some y) →
      ({ key := "creation_date", priority := 500, description := "Creation date", type := some [.datetime, .date], filter := some .datetime, textHandler := some (env.handler "humanDatetime"), conversion := some (setDatetime env), plainText := Metadata.plainText env, values := vs } : Data).candidate cfg (.value (.text t)) = .ok none ∨
      ({ key := "creation_date", priority := 500, description := "Creation date", type := some [.datetime, .date], filter := some .datetime, textHandler := some (env.handler "humanDatetime"), conversion := some (setDatetime env), plainText := Metadata.plainText env, values := vs } : Data).candidate cfg (.value (.text t)) = .ok (some (v, x)) ∧ (∃ y m d, v = .date y m d) ∨
      ({ key := "creation_date", priority := 500, description := "Creation date", type := some [.datetime, .date], filter := some .datetime, textHandler := some (env.handler "humanDatetime"), conversion := some (setDatetime env), plainText := Metadata.plainText env, values := vs } : Data).candidate cfg (.value (.text t)) = .ok (some (v, x)) ∧ (∃ y m, v = .datetime y m) := by
    intro v x h
    rw [Data.candidate]
    rcases h with ⟨h, rfl⟩ | ⟨y, h, rfl⟩ <;> simp only [Data.convert, setDatetime, h, bind, Except.bind]
    all_goals
      cases v with
      | text u =>
        left
        by_cases hb : normalizeString cfg u = []
        · simp only [hb, if_true]
        · simp only [if_neg hb]
          rfl
      | date y m d => exact .inr (.inl ⟨rfl, _, _, _, rfl⟩)
      | datetime y m => exact .inr (.inr ⟨rfl, _, _, rfl⟩)
      | num n => cases n <;> exact .inl rfl
      | _ => exact .inl rfl
  cases hp : env.parseDatetime t with
  | raised => exact .inl (by rw [Data.candidate]; simp only [Data.convert, setDatetime, hp, bind, Except.bind])
  | nothing => exact .inl (by rw [Data.candidate]; simp only [Data.convert, setDatetime, hp, bind, Except.bind]; rfl)
  | value v =>
    rcases key v none (.inl ⟨hp, rfl⟩) with h | ⟨h, y, m, d, rfl⟩ | ⟨h, y, m, rfl⟩
    · exact .inl h
    · obtain ⟨x, hx⟩ := hd y m d
      exact .inr ⟨_, _, h, ht _ [] (.inl hp), by simp only [Data.createItem, hx, bind, Except.bind]; exact ⟨_, rfl⟩⟩
    · obtain ⟨x, hx⟩ := hw.date y m
      exact .inr ⟨_, _, h, ht _ [] (.inl hp), by simp only [Data.createItem, hx, bind, Except.bind]; exact ⟨_, rfl⟩⟩
  | pair v x =>
    rcases key v (some x) (.inr ⟨x, hp, rfl⟩) with h | ⟨h, -⟩ | ⟨h, -⟩
    · exact .inl h
    · exact .inr ⟨_, _, h, ht _ x (.inr hp), ⟨_, rfl⟩⟩
    · exact .inr ⟨_, _, h, ht _ x (.inr hp), ⟨_, rfl⟩⟩

/-! ### Comments -/

/-- An assignment as assignments to single keys: a track number may have a total. -/
def single (p : String × Arg) : List (String × Arg) :=
  match trackTotal p.1 p.2 with
  | none => [p]
  | some t => [("track_total", .value (.text t)), p]

/-- Values of a key after assignments. -/
def valsFor (cfg : Config) (env : Env) (k : String) (l : List (String × Arg)) (vs : List Item) : List Item :=
  (l.filter fun p => p.1 = k).foldl (fun vs p => addVals cfg env k p.2 vs) vs

theorem valsFor_cons (cfg : Config) (env : Env) (k : String) (p : String × Arg) (l : List (String × Arg)) (vs : List Item) :
    valsFor cfg env k (p :: l) vs = valsFor cfg env k l (if p.1 = k then addVals cfg env k p.2 vs else vs) := by
  unfold valsFor
  by_cases h : p.1 = k
  · rw [List.filter_cons_of_pos (by simpa using h), List.foldl_cons, if_pos h]
  · rw [List.filter_cons_of_neg (by simpa using h), if_neg h]

theorem valsFor_append (cfg : Config) (env : Env) (k : String) (a b : List (String × Arg)) (vs : List Item) :
    valsFor cfg env k (a ++ b) vs = valsFor cfg env k b (valsFor cfg env k a vs) := by
  simp [valsFor]

theorem set_tame (cfg : Config) (env : Env) (h : Text) (f : String → List Item) (p : String × Arg) (hs : ∀ k', ∀ i ∈ f k', Good i.value) (ht : ∀ q ∈ single p, Tame cfg env q.1 q.2) :
    ∃ g, (⟨h, filled env f⟩ : Metadata).set cfg p.1 p.2 = .ok ⟨h, filled env g⟩ ∧ (∀ k', ∀ i ∈ g k', Good i.value) ∧ ∀ k', g k' = valsFor cfg env k' (single p) (f k') := by
  have up : ∀ (f : String → List Item) (k : String) (vs : List Item), (∀ k', ∀ i ∈ f k', Good i.value) → (∀ i ∈ vs, Good i.value) → ∀ k', ∀ i ∈ Function.update f k vs k', Good i.value := by
    intro f k vs h1 h2 k'
    by_cases e : k' = k
    · subst e
      rw [Function.update_self]
      exact h2
    · rw [Function.update_of_ne e]
      exact h1 k'
  have upv : ∀ (f : String → List Item) (q : String × Arg) (k' : String), Function.update f q.1 (addVals cfg env q.1 q.2 (f q.1)) k' = if q.1 = k' then addVals cfg env k' q.2 (f k') else f k' := by
    intro f q k'
    by_cases e : k' = q.1
    · subst e
      rw [Function.update_self, if_pos rfl]
    · rw [Function.update_of_ne e, if_neg (Ne.symm e)]
  unfold single at ht ⊢
  cases htt : trackTotal p.1 p.2 with
  | none =>
    rw [htt] at ht
    simp only [List.mem_singleton, forall_eq] at ht
    obtain ⟨h1, h2⟩ := tame_add cfg env h f p.1 p.2 hs ht
    refine ⟨_, by rw [Metadata.set, htt]; exact h1, up f p.1 _ hs h2, fun k' => ?_⟩
    rw [upv, valsFor_cons]
    rfl
  | some t =>
    rw [htt] at ht
    simp only [List.mem_cons, List.not_mem_nil, or_false, forall_eq_or_imp, forall_eq] at ht
    obtain ⟨h1, h2⟩ := tame_add cfg env h f "track_total" (.value (.text t)) hs ht.1
    have hs' := up f "track_total" _ hs h2
    obtain ⟨h3, h4⟩ := tame_add cfg env h _ p.1 p.2 hs' ht.2
    refine ⟨_, ?_, up _ p.1 _ hs' h4, fun k' => ?_⟩
    · rw [Metadata.set, htt]
      simp only [h1, bind, Except.bind]
      exact h3
    · rw [upv, upv f ("track_total", .value (.text t)), valsFor_cons, valsFor_cons]
      rfl

theorem assign_tame (cfg : Config) (env : Env) (h : Text) : ∀ (l : List (String × Arg)) (f : String → List Item), (∀ k', ∀ i ∈ f k', Good i.value) → (∀ p ∈ l, ∀ q ∈ single p, Tame cfg env q.1 q.2) →
    ∀ r, ∃ g, assign cfg ⟨h, filled env f⟩ (l.map .ok ++ r) = assign cfg ⟨h, filled env g⟩ r ∧ (∀ k', ∀ i ∈ g k', Good i.value) ∧ ∀ k', g k' = valsFor cfg env k' (l.flatMap single) (f k')
  | [], f, hs, _, r => ⟨f, rfl, hs, fun _ => rfl⟩
  | p :: l, f, hs, ht, r => by
    obtain ⟨g, h1, h2, h3⟩ := set_tame cfg env h f p hs (ht p (List.mem_cons_self ..))
    obtain ⟨g', h4, h5, h6⟩ := assign_tame cfg env h l g h2 (fun q hq => ht q (List.mem_cons_of_mem _ hq)) r
    refine ⟨g', ?_, h5, fun k' => ?_⟩
    · rw [List.map_cons, List.cons_append, assign, h1]
      exact h4
    · rw [h6, h3, List.flatMap_cons, valsFor_append]

/-! ### Which comments are told -/

theorem splitEq_iff (k v : Text) : ∀ t : Text, splitEq t = some (k, v) ↔ t = k ++ 61 :: v ∧ 61 ∉ k := by
  induction k with
  | nil =>
    intro t
    cases t with
    | nil => simp [splitEq]
    | cons c r =>
      rw [splitEq]
      by_cases h : c = 61
      · simp [h]
      · rw [if_neg h]
        constructor
        · intro e
          obtain ⟨p, -, e⟩ := Option.map_eq_some_iff.1 e
          simp at e
        · rintro ⟨e, -⟩
          simp [h] at e
  | cons a k ih =>
    intro t
    cases t with
    | nil => simp [splitEq]
    | cons c r =>
      rw [splitEq]
      by_cases h : c = 61
      · subst h
        simp only [if_true, List.cons_append, List.cons.injEq, List.mem_cons, not_or, Option.some.injEq, Prod.mk.injEq]
        constructor
        · rintro ⟨e, -⟩
          simp at e
        · rintro ⟨⟨e, -⟩, e', -⟩
          exact absurd e e'
      · rw [if_neg h]
        simp only [Option.map_eq_some_iff, List.cons_append, List.cons.injEq, List.mem_cons, not_or]
        constructor
        · rintro ⟨p, hp, e⟩
          simp only [Prod.mk.injEq, List.cons.injEq] at e
          obtain ⟨⟨rfl, rfl⟩, rfl⟩ := e
          obtain ⟨rfl, e2⟩ := (ih r).mp hp
          exact ⟨⟨rfl, rfl⟩, Ne.symm h, e2⟩
        · rintro ⟨⟨rfl, rfl⟩, -, e⟩
          exact ⟨(k, v), (ih _).mpr ⟨rfl, e⟩, rfl⟩

theorem names_table : ∀ p ∈ keyToAttr, p.1 ∈ vorbisNames p.2 := by decide +kernel

theorem names_distinct : ∀ p ∈ keyToAttr, ∀ q ∈ keyToAttr, txt p.1 = txt q.1 → p = q := by decide +kernel

theorem names_all (a s : String) (h : s ∈ vorbisNames a) : (s, a) ∈ keyToAttr := by
  have st : ∀ (x : String) (L R : List String), s ∈ (if a = x then L else R) → (a = x ∧ s ∈ L) ∨ s ∈ R := by
    intro x L R h
    by_cases e : a = x
    · rw [if_pos e] at h
      exact .inl ⟨e, h⟩
    · rw [if_neg e] at h
      exact .inr h
  unfold vorbisNames at h
  iterate 14
    replace h := st _ _ _ h
    rcases h with ⟨e, h⟩ | h
    · clear st
      subst e
      revert s
      decide +kernel
  cases h

theorem attrOf_iff (upper : Text → Text) (key : Text) (a : String) : attrOf upper key = some a ↔ ∃ s ∈ vorbisNames a, upper key = txt s := by
  unfold attrOf
  constructor
  · intro h
    obtain ⟨p, hp, rfl⟩ := Option.map_eq_some_iff.1 h
    exact ⟨p.1, names_table p (List.mem_of_find?_eq_some hp), (by simpa using (List.find?_some hp) : txt p.1 = upper key).symm⟩
  · rintro ⟨s, hs, e⟩
    have hm := names_all a s hs
    cases hf : keyToAttr.find? fun p => txt p.1 == upper key with
    | none =>
      have := List.find?_eq_none.1 hf _ hm
      simp [e] at this
    | some q =>
      have h1 : txt q.1 = upper key := by simpa using List.find?_some hf
      have := names_distinct q (List.mem_of_find?_eq_some hf) _ hm (h1.trans e)
      simp [this]

/-- **C160.** A comment is an assignment of the text behind the first `=` to the attribute of its name, if the name is known. -/
theorem C160_comment (upper : Text → Text) (t : Text) (a : String) (x : Arg) : comment upper t = some (a, x) ↔ ∃ v, x = .value (.text v) ∧ IsComment upper t a v := by
  unfold comment IsComment
  cases h : splitEq t with
  | none =>
    simp only [reduceCtorEq, false_iff]
    rintro ⟨v, -, key, e, hk, -⟩
    rw [(splitEq_iff key v t).mpr ⟨e, hk⟩] at h
    cases h
  | some p =>
    obtain ⟨k, v⟩ := p
    obtain ⟨e1, e2⟩ := (splitEq_iff k v t).mp h
    simp only [Option.map_eq_some_iff, Prod.mk.injEq]
    constructor
    · rintro ⟨b, hb, rfl, rfl⟩
      exact ⟨v, rfl, k, e1, e2, (attrOf_iff upper k b).mp hb⟩
    · rintro ⟨v', rfl, key, e3, e4, hs⟩
      have := (splitEq_iff key v' t).mpr ⟨e3, e4⟩
      rw [h] at this
      simp only [Option.some.injEq, Prod.mk.injEq] at this
      obtain ⟨rfl, rfl⟩ := this
      exact ⟨a, (attrOf_iff upper k a).mpr hs, rfl, rfl⟩

theorem IsComment.unique {upper : Text → Text} {t : Text} {a b : String} {v w : Text} (h : IsComment upper t a v) (g : IsComment upper t b w) : a = b ∧ v = w := by
  have e1 := (C160_comment upper t a (.value (.text v))).mpr ⟨v, rfl, h⟩
  have e2 := (C160_comment upper t b (.value (.text w))).mpr ⟨w, rfl, g⟩
  rw [e1] at e2
  simpa using e2

/-- The texts for an attribute, in their order. -/
inductive TextsFor (upper : Text → Text) (attr : String) : List Text → List Text → Prop where
  | nil : TextsFor upper attr [] []
  | skip (t : Text) (items vs : List Text) : (∀ v, ¬ IsComment upper t attr v) → TextsFor upper attr items vs → TextsFor upper attr (t :: items) vs
  | take (t v : Text) (items vs : List Text) : IsComment upper t attr v → TextsFor upper attr items vs → TextsFor upper attr (t :: items) (v :: vs)

theorem texts_filter (upper : Text → Text) (k : String) (items vs : List Text) (h : TextsFor upper k items vs) :
    (items.filterMap (comment upper)).filter (fun p => p.1 = k) = vs.map fun v => (k, .value (.text v)) := by
  induction h with
  | nil => rfl
  | skip t items vs hn _ ih =>
    cases hc : comment upper t with
    | none => rw [List.filterMap_cons_none hc, ih]
    | some p =>
      obtain ⟨a, x⟩ := p
      obtain ⟨v, rfl, hv⟩ := (C160_comment upper t a x).mp hc
      have : a ≠ k := by rintro rfl; exact hn v hv
      rw [List.filterMap_cons_some hc, List.filter_cons_of_neg (by simpa using this), ih]
  | take t v items vs hv _ ih =>
    rw [List.filterMap_cons_some ((C160_comment upper t k _).mpr ⟨v, rfl, hv⟩), List.filter_cons_of_pos (by simp), ih]
    rfl

theorem single_filter (k : String) (hk : k ≠ "track_total") : ∀ l : List (String × Arg), (l.flatMap single).filter (fun p => p.1 = k) = l.filter (fun p => p.1 = k)
  | [] => rfl
  | p :: l => by
    rw [List.flatMap_cons, List.filter_append, single_filter k hk l]
    unfold single
    cases trackTotal p.1 p.2 with
    | none => rw [← List.filter_append]; rfl
    | some t =>
      simp only
      rw [List.filter_cons_of_neg (by simpa using (Ne.symm hk)), ← List.filter_append]
      rfl

/-- The dates of the comments can be told. -/
def GoodDates (env : Env) (upper : Text → Text) (items : List Text) : Prop := ∀ t ∈ items, ∀ v, IsComment upper t "creation_date" v → GoodDate env v

theorem attrs_all (upper : Text → Text) (t : Text) (a : String) (v : Text) (h : IsComment upper t a v) : a ∈ textAttrs ∨ a = "creation_date" ∨ a = "track_number" ∨ a = "track_total" := by
  obtain ⟨-, -, -, s, hs, -⟩ := h
  have : ∀ p ∈ keyToAttr, p.2 ∈ textAttrs ∨ p.2 = "creation_date" ∨ p.2 = "track_number" ∨ p.2 = "track_total" := by decide +kernel
  exact this _ (names_all a s hs)

theorem tame_comment (cfg : Config) (env : Env) (hw : Writes env) (hd : WritesDays env) (upper : Text → Text) (t : Text) (p : String × Arg) (hg : ∀ v, IsComment upper t "creation_date" v → GoodDate env v)
    (h : comment upper t = some p) : ∀ q ∈ single p, Tame cfg env q.1 q.2 := by
  obtain ⟨a, x⟩ := p
  obtain ⟨v, rfl, hv⟩ := (C160_comment upper t a x).mp h
  have hplain : Tame cfg env a (.value (.text v)) := by
    rcases attrs_all upper t a v hv with h | rfl | rfl | rfl
    · exact tame_text cfg env a h v
    · exact tame_date cfg env hw hd v (hg v hv)
    · exact tame_track cfg env v
    · exact tame_total cfg env v
  intro q hq
  unfold single at hq
  cases htt : trackTotal a (.value (.text v)) with
  | none =>
    rw [htt] at hq
    simp only [List.mem_singleton] at hq
    subst hq
    exact hplain
  | some u =>
    rw [htt] at hq
    simp only [List.mem_cons, List.not_mem_nil, or_false] at hq
    rcases hq with rfl | rfl
    · exact tame_total cfg env u
    · exact hplain

/-- The assignments of the comments, with the one of the vendor. -/
def assignments (upper : Text → Text) (vendor : Option Text) (items : List Text) : List (String × Arg) := ("producer", .value (vendorValue vendor)) :: items.filterMap (comment upper)

theorem vendor_tame (cfg : Config) (env : Env) (vendor : Option Text) : ∀ q ∈ single ("producer", .value (vendorValue vendor)), Tame cfg env q.1 q.2 := by
  have : single ("producer", .value (vendorValue vendor)) = [("producer", .value (vendorValue vendor))] := by
    unfold single trackTotal
    rw [if_neg (show ¬ "producer" = "track_number" by decide)]
  rw [this]
  simp only [List.mem_singleton, forall_eq]
  cases vendor with
  | none => exact tame_none cfg env "producer" (by decide)
  | some t => exact tame_text cfg env "producer" (by decide) t

theorem comments_core (cfg : Config) (env : Env) (hw : Writes env) (hd : WritesDays env) (upper : Text → Text) (h : Text) (f : String → List Item) (hs : ∀ k', ∀ i ∈ f k', Good i.value) (vendor : Option Text)
    (items : List Text) (hg : GoodDates env upper items) (more : List Text) :
    ∃ g, readComments cfg upper ⟨h, filled env f⟩ vendor (items ++ more) = assign cfg ⟨h, filled env g⟩ ((more.filterMap (comment upper)).map .ok) ∧ (∀ k', ∀ i ∈ g k', Good i.value) ∧
      ∀ k', g k' = valsFor cfg env k' ((assignments upper vendor items).flatMap single) (f k') := by
  obtain ⟨g, h1, h2, h3⟩ := assign_tame cfg env h (assignments upper vendor items) f hs (by
    intro p hp
    rcases List.mem_cons.1 hp with rfl | hp
    · exact vendor_tame cfg env vendor
    · obtain ⟨t, ht, hc⟩ := List.mem_filterMap.1 hp
      exact tame_comment cfg env hw hd upper t p (hg t ht) hc) ((more.filterMap (comment upper)).map .ok)
  refine ⟨g, ?_, h2, h3⟩
  rw [← h1, readComments, assignments, List.filterMap_append, List.map_append]
  rfl

theorem toldFor_congr (env : Env) (h h' : Text) (f g : String → List Item) (k : String) (e : f k = g k) : toldFor ⟨h, filled env f⟩ k = toldFor ⟨h', filled env g⟩ k := by
  cases hd : (registerAllItems env).find? (fun d => d.key = k) with
  | some d0 => rw [told_filled env h f k d0 hd, told_filled env h' g k d0 hd, e]
  | none =>
    have key : ∀ (h : Text) (f : String → List Item), toldFor ⟨h, filled env f⟩ k = [] := by
      intro h f
      rw [toldFor, filled]
      simp only
      rw [List.find?_map]
      have e : ((fun d : Data => decide (d.key = k)) ∘ fun d : Data => ({ d with values := f d.key } : Data)) = fun d => decide (d.key = k) := rfl
      rw [e, hd]
      rfl
    rw [key, key]

/-- **C160.** What is told for an attribute depends only on the comments for it (and the vendor), in their order: comments for others, without `=` or with unknown names do not matter. -/
theorem C160_alone (cfg : Config) (env : Env) (hw : Writes env) (hd : WritesDays env) (upper : Text → Text) (h : Text) (vendor : Option Text) (items items' : List Text)
    (hg : GoodDates env upper items) (hg' : GoodDates env upper items') (k : String) (hk : k ≠ "track_total") (vs : List Text) (hv : TextsFor upper k items vs) (hv' : TextsFor upper k items' vs) :
    toldFor (readComments cfg upper (Metadata.new env h) vendor items) k = toldFor (readComments cfg upper (Metadata.new env h) vendor items') k := by
  rw [show Metadata.new env h = ⟨h, filled env fun _ => []⟩ by rw [filled_nil]; rfl]
  obtain ⟨g, h1, -, h3⟩ := comments_core cfg env hw hd upper h (fun _ => []) (by simp) vendor items hg []
  obtain ⟨g', h1', -, h3'⟩ := comments_core cfg env hw hd upper h (fun _ => []) (by simp) vendor items' hg' []
  rw [List.append_nil] at h1 h1'
  rw [h1, h1']
  simp only [List.filterMap_nil, List.map_nil, assign]
  refine toldFor_congr env h h g g' k ?_
  rw [h3, h3', valsFor, valsFor, single_filter k hk, single_filter k hk, assignments, assignments, List.filter_cons, List.filter_cons, texts_filter upper k items vs hv, texts_filter upper k items' vs hv']

/-! ### Texts -/

theorem contains_text (u : Text) : ∀ l : List Item, (∀ i ∈ l, i.value ≠ .text u) → contains (.text u) l = .ok false
  | [], _ => rfl
  | i :: r, h => by
    have h1 : (Value.text u).eq i.value = .ok false := by
      have := h i (List.mem_cons_self ..)
      obtain ⟨v, x⟩ := i
      cases v <;> simp_all [Value.eq, eq_comm]
    simp only [contains, bind, Except.bind, h1, Bool.false_eq_true, if_false]
    exact contains_text u r fun j hj => h j (List.mem_cons_of_mem _ hj)

/-- Neither text is the beginning of the other. -/
def TextsApart (a b : Text) : Prop := ¬ a <+: b ∧ ¬ b <+: a

/-- A text as an item. -/
def textItem (u : Text) : Item := ⟨.text u, u⟩

theorem add_place (cfg : Config) (env : Env) (k : String) (hk : k ∈ textAttrs) (t : Text) (hb : normalizeString cfg t ≠ []) (vs : List Item) (hv : ∀ i ∈ vs, i.value ≠ .text (toldName cfg t)) :
    addVals cfg env k (.value (.text t)) vs = placeText (toldName cfg t) (textItem (toldName cfg t)) vs := by
  obtain ⟨d0, h1, h2, h3, h4⟩ := text_attr env k hk
  have hc := contains_text (toldName cfg t) vs hv
  have ha : ({ d0 with values := vs } : Data).add cfg (.value (.text t)) = .ok { d0 with values := placeText (toldName cfg t) (textItem (toldName cfg t)) vs } := by
    rw [toldName] at hc
    rw [Data.add, Data.candidate]
    simp only [Data.convert, h4, bind, Except.bind, if_neg hb, h2, Bool.not_true, Bool.false_eq_true, if_false, hc, Data.filterOk, h3, Option.getD_none]
    rfl
  unfold addVals
  rw [h1]
  simp only
  rw [ha]

theorem place_last (u : Text) : ∀ ws : List Text, (∀ w ∈ ws, TextsApart w u) → placeText u (textItem u) (ws.map textItem) = ws.map textItem ++ [textItem u]
  | [], _ => rfl
  | w :: ws, h => by
    obtain ⟨h1, h2⟩ := h w (List.mem_cons_self ..)
    have ih := place_last u ws fun x hx => h x (List.mem_cons_of_mem _ hx)
    rw [List.map_cons, placeText]
    simp only [textItem]
    rw [if_neg (fun e => h1 (List.isPrefixOf_iff_prefix.1 e)), if_neg (fun e => h2 (List.isPrefixOf_iff_prefix.1 e))]
    exact congrArg _ ih

theorem add_apart (cfg : Config) (env : Env) (k : String) (hk : k ∈ textAttrs) (t : Text) (hb : normalizeString cfg t ≠ []) (ws : List Text) (hv : ∀ w ∈ ws, TextsApart w (toldName cfg t)) :
    addVals cfg env k (.value (.text t)) (ws.map textItem) = (ws ++ [toldName cfg t]).map textItem := by
  rw [add_place cfg env k hk t hb, place_last _ ws hv, List.map_append]
  · rfl
  · intro i hi e
    obtain ⟨w, hw, rfl⟩ := List.mem_map.1 hi
    simp only [textItem, Value.text.injEq] at e
    exact (hv w hw).1 (by rw [e]; exact List.prefix_rfl)

theorem fold_apart (cfg : Config) (env : Env) (k : String) (hk : k ∈ textAttrs) : ∀ (vs ws : List Text), (∀ t ∈ vs, normalizeString cfg t ≠ []) → (ws ++ vs.map (toldName cfg)).Pairwise TextsApart →
    (vs.map fun v => ((k, .value (.text v)) : String × Arg)).foldl (fun l p => addVals cfg env k p.2 l) (ws.map textItem) = (ws ++ vs.map (toldName cfg)).map textItem
  | [], ws, _, _ => by simp
  | t :: vs, ws, hb, hp => by
    rw [List.map_cons, List.foldl_cons]
    simp only
    rw [add_apart cfg env k hk t (hb t (List.mem_cons_self ..)) ws]
    · rw [fold_apart cfg env k hk vs _ (fun x hx => hb x (List.mem_cons_of_mem _ hx)) (by simpa using hp)]
      simp
    · intro w hw
      exact (List.pairwise_append.1 hp).2.2 w hw _ (by simp)

/-- The vendor is told as producer, too. -/
def vendorTexts (k : String) (vendor : Option Text) : List Text := if k = "producer" then vendor.toList else []

theorem vendor_vals (cfg : Config) (env : Env) (k : String) (vendor : Option Text) (l : List (String × Arg)) (ws : List Item) :
    (List.filter (fun p : String × Arg => p.1 = k) (("producer", .value (vendorValue vendor)) :: l)).foldl (fun vs p => addVals cfg env k p.2 vs) ws =
      ((vendorTexts k vendor).map (fun v => ((k, .value (.text v)) : String × Arg)) ++ l.filter (fun p => p.1 = k)).foldl (fun vs p => addVals cfg env k p.2 vs) ws := by
  by_cases hk : k = "producer"
  · subst hk
    rw [List.filter_cons_of_pos (by simp), vendorTexts, if_pos rfl]
    cases vendor with
    | some t => rfl
    | none =>
      simp only [Option.toList_none, List.map_nil, List.nil_append, List.foldl_cons]
      have : addVals cfg env "producer" (.value (vendorValue none)) ws = ws := by
        obtain ⟨d0, h1, -⟩ := text_attr env "producer" (by decide)
        unfold addVals
        rw [h1]
        simp only
        rw [show vendorValue none = Value.none from rfl, add_none]
      rw [this]
  · rw [List.filter_cons_of_neg (by simpa using (Ne.symm hk)), vendorTexts, if_neg hk]
    rfl

/-- **C160.** All the texts for an attribute are told, in their order, when none of them is the beginning of another. -/
theorem C160_texts (cfg : Config) (env : Env) (hw : Writes env) (hd : WritesDays env) (upper : Text → Text) (h : Text) (vendor : Option Text) (items : List Text) (hg : GoodDates env upper items)
    (k : String) (hk : k ∈ textAttrs) (vs : List Text) (hv : TextsFor upper k items vs) (hb : ∀ t ∈ vendorTexts k vendor ++ vs, normalizeString cfg t ≠ [])
    (hp : ((vendorTexts k vendor ++ vs).map (toldName cfg)).Pairwise TextsApart) :
    toldFor (readComments cfg upper (Metadata.new env h) vendor items) k = (vendorTexts k vendor ++ vs).map fun t => .text (toldName cfg t) := by
  rw [show Metadata.new env h = ⟨h, filled env fun _ => []⟩ by rw [filled_nil]; rfl]
  obtain ⟨g, h1, -, h3⟩ := comments_core cfg env hw hd upper h (fun _ => []) (by simp) vendor items hg []
  rw [List.append_nil] at h1
  rw [h1]
  simp only [List.filterMap_nil, List.map_nil, assign]
  obtain ⟨d0, hd0, -⟩ := text_attr env k hk
  have hk' : k ≠ "track_total" := by rintro rfl; exact absurd hk (by decide)
  rw [told_filled env h g k d0 hd0, h3, valsFor, single_filter k hk', assignments, vendor_vals, texts_filter upper k items vs hv, ← List.map_append]
  have := fold_apart cfg env k hk (vendorTexts k vendor ++ vs) [] hb (by simpa using hp)
  rw [List.map_nil, List.nil_append] at this
  rw [this, List.map_map, List.map_map]
  rfl

/-- **C160** (disagreement): of two texts, one the beginning of the other, only the longer one is told. -/
theorem C160_shorter (cfg : Config) (env : Env) (hw : Writes env) (hd : WritesDays env) (upper : Text → Text) (h : Text) (items : List Text) (hg : GoodDates env upper items)
    (k : String) (hk : k ∈ textAttrs) (a b : Text) (hv : TextsFor upper k items [a, b]) (ha : normalizeString cfg a ≠ []) (hb : normalizeString cfg b ≠ [])
    (hp : toldName cfg a <+: toldName cfg b) (hne : toldName cfg a ≠ toldName cfg b) :
    toldFor (readComments cfg upper (Metadata.new env h) none items) k = [.text (toldName cfg b)] := by
  rw [show Metadata.new env h = ⟨h, filled env fun _ => []⟩ by rw [filled_nil]; rfl]
  obtain ⟨g, h1, -, h3⟩ := comments_core cfg env hw hd upper h (fun _ => []) (by simp) none items hg []
  rw [List.append_nil] at h1
  rw [h1]
  simp only [List.filterMap_nil, List.map_nil, assign]
  obtain ⟨d0, hd0, -⟩ := text_attr env k hk
  have hk' : k ≠ "track_total" := by rintro rfl; exact absurd hk (by decide)
  have hvt : vendorTexts k none = [] := by unfold vendorTexts; split <;> rfl
  rw [told_filled env h g k d0 hd0, h3, valsFor, single_filter k hk', assignments, vendor_vals, texts_filter upper k items _ hv, hvt]
  simp only [List.map_nil, List.nil_append, List.map_cons, List.foldl_cons, List.foldl_nil]
  have e1 := add_apart cfg env k hk a ha [] (by simp)
  rw [List.map_nil] at e1
  rw [e1, add_place cfg env k hk b hb _ (by simpa [textItem] using hne)]
  simp only [List.nil_append, List.map_cons, List.map_nil, placeText, textItem]
  rw [if_pos (List.isPrefixOf_iff_prefix.2 hp)]
  rfl

/-! ### Lost comments -/

theorem find_filled (env : Env) (g : String → List Item) (k : String) (d0 : Data) (hd : (registerAllItems env).find? (fun d => d.key = k) = some d0) :
    (filled env g).find? (fun d => d.key = k) = some { d0 with values := g k } := by
  rw [filled, List.find?_map]
  have e : ((fun d : Data => decide (d.key = k)) ∘ fun d : Data => ({ d with values := g d.key } : Data)) = fun d => decide (d.key = k) := rfl
  rw [e, hd]
  have hk := List.find?_some hd
  simp only [decide_eq_true_eq] at hk
  simp [hk]

theorem bad_date (cfg : Config) (env : Env) (h : Text) (g : String → List Item) (v : Text) (r : Hachoir.Time.DateTime) (z : Int)
    (hp : env.parseDatetime v = .value (.datetime r (some z))) (hz : ¬ (-24 < z ∧ z < 24)) : ∃ e, (⟨h, filled env g⟩ : Metadata).set cfg "creation_date" (.value (.text v)) = .error e := by
  have hu : utcOffset z = .error .value := by rw [utcOffset, if_neg hz]
  have h0 : trackTotal "creation_date" (.value (.text v)) = none := by unfold trackTotal; rw [if_neg (by decide)]
  have hadd : ∃ e, ({ key := "creation_date", priority := 500, description := "Creation date", type := some [.datetime, .date], filter := some .datetime, textHandler := some (env.handler "humanDatetime"), conversion := some (setDatetime env), plainText := Metadata.plainText env, values := g "creation_date" } : Data).add cfg (.value (.text v)) = .error e := by
    have hf : Filter.call .datetime (.datetime r (some z)) = .error .value := by simp only [Filter.call, bind, Except.bind, hu]
    rw [Data.add, Data.candidate]
    simp only [Data.convert, setDatetime, hp, bind, Except.bind, Data.typeOk, Value.isInstance, List.any_cons, Bool.or_true, Bool.true_or, Bool.not_true, Bool.false_eq_true, if_false]
    cases hc : contains (.datetime r (some z)) (g "creation_date") with
    | error e => exact ⟨e, rfl⟩
    | ok b =>
      cases b with
      | false => simp only [Bool.false_eq_true, if_false, Data.filterOk, hf]; exact ⟨_, rfl⟩
      | true =>
        obtain ⟨i, hi, e⟩ := contains_true hc
        exfalso
        obtain ⟨w, x⟩ := i
        cases w <;> simp [Value.eq] at e
        rename_i t y
        cases y <;> simp [bind, Except.bind, hu] at e
  obtain ⟨e, he⟩ := hadd
  refine ⟨e, ?_⟩
  rw [Metadata.set, h0]
  simp only
  rw [Metadata.addTo]
  simp only
  rw [updateKey_error "creation_date" _ e _ _ (find_filled env g _ _ (reg_creation env)) he]
  rfl

/-- **C160** (disagreement): a date with a time zone of a day or more ends the reading: all comments behind it are lost. -/
theorem C160_lost (cfg : Config) (env : Env) (hw : Writes env) (hd : WritesDays env) (upper : Text → Text) (h : Text) (vendor : Option Text) (before after : List Text) (t v : Text)
    (hg : GoodDates env upper before) (hc : IsComment upper t "creation_date" v) (r : Hachoir.Time.DateTime) (z : Int) (hp : env.parseDatetime v = .value (.datetime r (some z))) (hz : ¬ (-24 < z ∧ z < 24)) :
    readComments cfg upper (Metadata.new env h) vendor (before ++ t :: after) = readComments cfg upper (Metadata.new env h) vendor before := by
  rw [show Metadata.new env h = ⟨h, filled env fun _ => []⟩ by rw [filled_nil]; rfl]
  obtain ⟨g, h1, -, h3⟩ := comments_core cfg env hw hd upper h (fun _ => []) (by simp) vendor before hg (t :: after)
  obtain ⟨g', h1', -, h3'⟩ := comments_core cfg env hw hd upper h (fun _ => []) (by simp) vendor before hg []
  rw [List.append_nil] at h1'
  have : g = g' := funext fun k => by rw [h3, h3']
  subst this
  rw [h1, h1', List.filterMap_cons_some ((C160_comment upper t "creation_date" _).mpr ⟨v, rfl, hc⟩), List.map_cons, assign]
  obtain ⟨e, he⟩ := bad_date cfg env h g v r z hp hz
  rw [he]
  rfl

end Hachoir.Props
