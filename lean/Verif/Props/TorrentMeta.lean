import Verif.Metadata.Torrent
import Verif.Props.Bencode
import Verif.Props.SummaryMeta

/-!
# C169: what is told of torrents
-/

namespace Hachoir.Props
open Hachoir Hachoir.Formats Hachoir.Metadata Hachoir.Core Hachoir.Human _root_.Props

/-! ### Specification -/

/-- The pairs of a dictionary. -/
def benList : BenPairs Int Bytes → List (Ben Int Bytes × Ben Int Bytes)
  | .nil => []
  | .cons k v l => (k, v) :: benList l

/-- The key with underscores for spaces; empty keys and keys of 512 bytes or more are not looked at. -/
def torrentName : Ben Int Bytes → Option Bytes
  | .str b => if 1 ≤ b.length ∧ b.length < 512 then some (b.map fun c => if c = 32 then 95 else c) else none
  | _ => none

/-- No two keys have the same name. -/
def TorrentDistinct (l : BenPairs Int Bytes) : Prop := ((benList l).filterMap fun p => torrentName p.1).Nodup

/-- The value of the key of this name. -/
def torrentGet (n : String) (l : BenPairs Int Bytes) : Option (Ben Int Bytes) :=
  ((benList l).find? fun p => torrentName p.1 = some (asc n)).map Prod.snd

/-- The value of a key in the dictionary `info`. -/
def torrentInfo (n : String) (l : BenPairs Int Bytes) : Option (Ben Int Bytes) :=
  match torrentGet "info" l with
  | some (.dict i) => torrentGet n i
  | _ => none

/-- The names in the dictionary `info`, too, are distinct. -/
def InfoDistinct (l : BenPairs Int Bytes) : Prop := ∀ i, torrentGet "info" l = some (.dict i) → TorrentDistinct i

/-- What is told of a text: its bytes as characters, if there are from 1 to 511 and not only blanks. -/
def torrentText (cfg : Config) : Option (Ben Int Bytes) → List Value
  | some (.str b) => if 1 ≤ b.length ∧ b.length < 512 ∧ normalizeString cfg (b.map UInt8.toNat) ≠ [] then [.text (toldName cfg (b.map UInt8.toNat))] else []
  | _ => []

/-! ### Names -/

theorem items_shown : ∀ l : BenPairs Int Bytes, Torrent.itemsOf (pairsShown l) = (benList l).map fun p => (benShown p.1, benShown p.2)
  | .nil => by rw [pairsShown, Torrent.itemsOf, benList, List.map_nil]
  | .cons k v l => by rw [pairsShown, Torrent.itemsOf, benList, List.map_cons, items_shown l]

theorem name_shown (k : Ben Int Bytes) : Torrent.nameOf (benShown k) = torrentName k := by
  cases k with
  | int n => rw [benShown]; rfl
  | list l => rw [benShown]; rfl
  | dict l => rw [benShown]; rfl
  | str b =>
    rw [benShown, shownStr, torrentName]
    by_cases h : b.length = 0 ∨ 512 ≤ b.length
    · rw [if_pos h, if_neg (by omega)]; rfl
    · rw [if_neg h, if_pos (by omega)]; rfl

theorem only_one {α β : Type} (name : α → Option Bytes) (f : α → List β) (P : β → Bool) (n : Bytes) (hf : ∀ p, name p ≠ some n → (f p).filter P = []) :
    ∀ l : List α, (l.filterMap name).Nodup → (l.flatMap f).filter P = ((l.find? fun p => name p = some n).elim [] fun p => (f p).filter P)
  | [], _ => rfl
  | p :: l, hn => by
    rw [List.flatMap_cons, List.filter_append]
    by_cases h : name p = some n
    · rw [List.find?_cons_of_pos (by simpa using h)]
      rw [List.filterMap_cons_some h, List.nodup_cons] at hn
      have : (l.flatMap f).filter P = [] := by
        rw [List.filter_flatMap, List.flatMap_eq_nil_iff]
        exact fun q hq => hf q fun e => hn.1 (List.mem_filterMap.2 ⟨q, hq, e⟩)
      rw [this, List.append_nil]
      rfl
    · rw [List.find?_cons_of_neg (by simpa using h), hf p h, List.nil_append]
      refine only_one name f P n hf l ?_
      cases hp : name p with
      | none => rwa [List.filterMap_cons_none hp] at hn
      | some m => rw [List.filterMap_cons_some hp] at hn; exact (List.nodup_cons.1 hn).2

/-! ### Assignments -/

/-- A value of an item. -/
def Plain : Value → Prop
  | .num (.int _) => True
  | .text _ => True
  | .none => True
  | _ => False

theorem plain_value (v : Shown) : Plain (Torrent.valueOf v) := by
  unfold Torrent.valueOf
  split <;> trivial

/-- What is told of a text. -/
def textTold (cfg : Config) : Value → List Value
  | .text t => if normalizeString cfg t = [] then [] else [.text (toldName cfg t)]
  | _ => []

theorem str_candidate (cfg : Config) (d : Data) (hty : d.type = some [.str]) (hc : d.conversion = none) (v : Value) (hv : Plain v) :
    d.candidate cfg (.value v) = .ok none ∧ textTold cfg v = [] ∨
      ∃ t, d.candidate cfg (.value v) = .ok (some (.text t, none)) ∧ textTold cfg v = [.text t] := by
  have h1 : ∀ t, d.typeOk (.text t) = true := fun t => by rw [Data.typeOk, hty]; rfl
  have h2 : ∀ n, d.typeOk (.num (.int n)) = false := fun n => by rw [Data.typeOk, hty]; rfl
  cases v with
  | none => exact .inl ⟨by rw [Data.candidate], rfl⟩
  | num n =>
    cases n with
    | int n =>
      refine .inl ⟨?_, rfl⟩
      rw [Data.candidate]
      simp only [Data.convert, hc, bind, Except.bind, h2, Bool.not_false, if_true]
    | float f => exact absurd hv (by simp [Plain])
  | text t =>
    by_cases hb : normalizeString cfg t = []
    · refine .inl ⟨?_, by rw [textTold, if_pos hb]⟩
      rw [Data.candidate]
      simp only [Data.convert, hc, bind, Except.bind, hb, if_true]
    · refine .inr ⟨toldName cfg t, ?_, by rw [textTold, if_neg hb]⟩
      rw [Data.candidate]
      simp only [Data.convert, hc, bind, Except.bind, if_neg hb, h1, Bool.not_true, Bool.false_eq_true, if_false]
      rfl
  | _ => exact absurd hv (by simp [Plain])

theorem tame_plain (cfg : Config) (env : Env) (k : String) (d0 : Data) (hd : (registerAllItems env).find? (fun d => d.key = k) = some d0) (hty : d0.type = some [.str])
    (hc : d0.conversion = none) (v : Value) (hv : Plain v) : Tame cfg env k (.value v) := by
  refine ⟨d0, hd, fun vs => ?_⟩
  rcases str_candidate cfg { d0 with values := vs } hty hc v hv with ⟨h, -⟩ | ⟨t, h, -⟩
  · exact .inl h
  · exact .inr ⟨.text t, none, h, fun _ _ h => (by cases h), ⟨_, rfl⟩⟩

theorem add_plain (cfg : Config) (env : Env) (k : String) (d0 : Data) (hd : (registerAllItems env).find? (fun d => d.key = k) = some d0) (hty : d0.type = some [.str])
    (hc : d0.conversion = none) (hf : d0.filter = none) (v : Value) (hv : Plain v) : (addVals cfg env k (.value v) []).map Item.value = textTold cfg v := by
  unfold addVals
  rw [hd]
  simp only
  rcases str_candidate cfg { d0 with values := [] } hty hc v hv with ⟨h, e⟩ | ⟨t, h, e⟩
  · rw [e, Data.add, h]
    rfl
  · rw [e, Data.add, h]
    simp only [bind, Except.bind, contains, Data.filterOk, hf]
    rfl

theorem reg_url (env : Env) : (registerAllItems env).find? (fun d => d.key = "url") =
    some { key := "url", priority := 602, description := "URL", type := some [.str], plainText := Metadata.plainText env } := by
  simp [registerAllItems]

theorem reg_comment (env : Env) : (registerAllItems env).find? (fun d => d.key = "comment") =
    some { key := "comment", priority := 902, description := "Comment", type := some [.str], plainText := Metadata.plainText env } := by
  simp [registerAllItems]

/-- `humanFilesize` raises for no number. -/
def WritesSize (env : Env) : Prop := ∀ n : Int, ∃ t, env.handler "humanFilesize" (.num (.int n)) = .ok t

/-- What is told of a number. -/
def numTold : Value → List Value
  | .num (.int n) => [.num (.int n)]
  | _ => []

theorem size_vals (cfg : Config) (env : Env) (hz : WritesSize env) (v : Value) (hv : Plain v) :
    Tame cfg env "file_size" (.value v) ∧ (addVals cfg env "file_size" (.value v) []).map Item.value = numTold v := by
  have key : ∀ vs : List Item, (({ key := "file_size", priority := 310, description := "File size", type := some [.int], textHandler := some (env.handler "humanFilesize"), plainText := Metadata.plainText env, values := vs } : Data).candidate cfg (.value v) =
      .ok none ∧ numTold v = []) ∨ ∃ n t, v = .num (.int n) ∧ env.handler "humanFilesize" (.num (.int n)) = .ok t := by
    intro vs
    cases v with
    | none => exact .inl ⟨by rw [Data.candidate], rfl⟩
    | num n =>
      cases n with
      | int n =>
        obtain ⟨t, ht⟩ := hz n
        exact .inr ⟨n, t, rfl, ht⟩
      | float f => exact absurd hv (by simp [Plain])
    | text t =>
      refine .inl ⟨?_, rfl⟩
      rw [Data.candidate]
      simp only [Data.convert, bind, Except.bind]
      by_cases hb : normalizeString cfg t = []
      · rw [if_pos hb]
      · rw [if_neg hb]
        rfl
    | _ => exact absurd hv (by simp [Plain])
  constructor
  · refine ⟨_, reg_file_size env, fun vs => ?_⟩
    rcases key vs with ⟨h, -⟩ | ⟨n, t, rfl, ht⟩
    · exact .inl h
    · exact .inr ⟨.num (.int n), none, rfl, fun _ _ h => (by cases h), ⟨⟨.num (.int n), t⟩, by simp only [Data.createItem, ht, bind, Except.bind]⟩⟩
  · unfold addVals
    rw [reg_file_size]
    simp only
    rcases key [] with ⟨h, e⟩ | ⟨n, t, rfl, ht⟩
    · rw [e, Data.add, h]
      rfl
    · have hc : ({ key := "file_size", priority := 310, description := "File size", type := some [.int], textHandler := some (env.handler "humanFilesize"), plainText := Metadata.plainText env } : Data).candidate cfg
          (.value (.num (.int n))) = .ok (some (.num (.int n), none)) := rfl
      rw [Data.add, hc]
      simp only [bind, Except.bind, contains, Data.filterOk, Data.createItem, ht]
      rfl

theorem torrent_moment (v : Shown) : Moment (Torrent.dateValue v) := by
  unfold Torrent.dateValue
  split
  · split <;> trivial
  · trivial

theorem info_tame (cfg : Config) (env : Env) (hz : WritesSize env) (p : Shown × Shown) : ∀ q ∈ Torrent.infoItem p, single q = [q] ∧ Tame cfg env q.1 q.2 := by
  intro q hq
  unfold Torrent.infoItem at hq
  split at hq
  · cases hq
  · split at hq
    · rw [List.mem_singleton] at hq
      subst hq
      exact ⟨single_ne _ _ (by decide), (size_vals cfg env hz _ (plain_value _)).1⟩
    · split at hq
      · rw [List.mem_singleton] at hq
        subst hq
        exact ⟨single_ne _ _ (by decide), tame_plain cfg env _ _ (reg_filename env) rfl rfl _ (plain_value _)⟩
      · split at hq
        · rw [List.mem_singleton] at hq
          subst hq
          exact ⟨single_ne _ _ (by decide), tame_text cfg env "comment" (by decide) _⟩
        · cases hq

theorem root_tame (cfg : Config) (env : Env) (hw : Writes env) (hz : WritesSize env) (p : Shown × Shown) : ∀ q ∈ Torrent.rootItem p, single q = [q] ∧ Tame cfg env q.1 q.2 := by
  intro q hq
  unfold Torrent.rootItem at hq
  split at hq
  · cases hq
  · split at hq
    · rw [List.mem_singleton] at hq
      subst hq
      exact ⟨single_ne _ _ (by decide), tame_plain cfg env _ _ (reg_url env) rfl rfl _ (plain_value _)⟩
    · split at hq
      · rw [List.mem_singleton] at hq
        subst hq
        exact ⟨single_ne _ _ (by decide), tame_plain cfg env _ _ (reg_comment env) rfl rfl _ (plain_value _)⟩
      · split at hq
        · rw [List.mem_singleton] at hq
          subst hq
          exact ⟨single_ne _ _ (by decide), tame_moment cfg env hw _ (.inl rfl) _ (torrent_moment _)⟩
        · split at hq
          · unfold Torrent.infoItems at hq
            split at hq
            · obtain ⟨p, -, hq⟩ := List.mem_flatMap.1 hq
              exact info_tame cfg env hz p q hq
            · cases hq
          · cases hq

/-- What a torrent is told with. -/
def torrentItems (l : BenPairs Int Bytes) : List (String × Arg) := (benList l).flatMap fun p => Torrent.rootItem (benShown p.1, benShown p.2)

theorem torrent_core (cfg : Config) (env : Env) (hw : Writes env) (hz : WritesSize env) (l : BenPairs Int Bytes) :
    ∃ g, Torrent.extract cfg env (benShown (.dict l)) = ⟨txt "Metadata", filled env g⟩ ∧ ∀ k, g k = valsFor cfg env k (torrentItems l) [] := by
  obtain ⟨g, h1, -, h3⟩ := run_tame cfg env (txt "Metadata") (torrentItems l) (fun _ => []) (by simp) (fun q hq => by
    obtain ⟨p, -, hq⟩ := List.mem_flatMap.1 hq
    exact root_tame cfg env hw hz _ q hq)
  refine ⟨g, ?_, h3⟩
  rw [benShown, Torrent.extract, items_shown, List.flatMap_map]
  rw [show Metadata.new env (txt "Metadata") = ⟨txt "Metadata", filled env fun _ => []⟩ by rw [filled_nil]; rfl]
  exact h1

theorem text_shown (cfg : Config) (v : Ben Int Bytes) : textTold cfg (Torrent.valueOf (benShown v)) = torrentText cfg (some v) := by
  cases v with
  | int n => rw [benShown]; rfl
  | list l => rw [benShown]; rfl
  | dict l => rw [benShown]; rfl
  | str b =>
    rw [benShown, shownStr, torrentText]
    by_cases h : b.length = 0 ∨ 512 ≤ b.length
    · rw [if_pos h, if_neg (by omega)]; rfl
    · rw [if_neg h]
      show textTold cfg (.text (b.map UInt8.toNat)) = _
      rw [textTold]
      by_cases hb : normalizeString cfg (b.map UInt8.toNat) = []
      · rw [if_pos hb, if_neg fun e => e.2.2 hb]
      · rw [if_neg hb, if_pos ⟨by omega, by omega, hb⟩]

/-- The items for an attribute that one key of the root is told with. -/
theorem root_only (l : BenPairs Int Bytes) (hd : TorrentDistinct l) (k n : String) (h : ∀ p, Torrent.nameOf p.1 ≠ some (asc n) → (Torrent.rootItem p).filter (fun q => decide (q.1 = k)) = []) :
    (torrentItems l).filter (fun q => decide (q.1 = k)) =
      (((benList l).find? fun p => torrentName p.1 = some (asc n)).elim [] fun p => (Torrent.rootItem (benShown p.1, benShown p.2)).filter fun q => decide (q.1 = k)) :=
  only_one (fun p : Ben Int Bytes × Ben Int Bytes => torrentName p.1) _ _ (asc n) (fun p hp => h _ (by rw [name_shown]; exact hp)) _ hd

theorem info_keys (v : Shown) (k : String) (hk : k ≠ "file_size" ∧ k ≠ "filename" ∧ k ≠ "comment") : (Torrent.infoItems v).filter (fun q => decide (q.1 = k)) = [] := by
  rw [List.filter_eq_nil_iff]
  intro q hq e
  have e : q.1 = k := by simpa using e
  unfold Torrent.infoItems at hq
  split at hq
  · obtain ⟨p, -, hq⟩ := List.mem_flatMap.1 hq
    unfold Torrent.infoItem at hq
    split at hq
    · cases hq
    · split at hq
      · rw [List.mem_singleton] at hq; subst hq; exact hk.1 e.symm
      · split at hq
        · rw [List.mem_singleton] at hq; subst hq; exact hk.2.1 e.symm
        · split at hq
          · rw [List.mem_singleton] at hq; subst hq; exact hk.2.2 e.symm
          · cases hq
  · cases hq

theorem asc_ne (a b : Bytes) (n : Bytes) (h : n = a) (hab : a ≠ b) : n ≠ b := by rw [h]; exact hab

/-- Items of a pair with another name. -/
theorem root_other (k n : String) (hn : (k, n) ∈ [("url", "announce"), ("creation_date", "creation_date"), ("file_size", "info"), ("filename", "info")]) (p : Shown × Shown)
    (h : Torrent.nameOf p.1 ≠ some (asc n)) : (Torrent.rootItem p).filter (fun q => decide (q.1 = k)) = [] := by
  rw [List.filter_eq_nil_iff]
  intro q hq e
  have e : q.1 = k := by simpa using e
  unfold Torrent.rootItem at hq
  split at hq
  · cases hq
  · rename_i m hm
    rw [hm] at h
    have hmn : m ≠ asc n := fun e => h (congrArg some e)
    simp only [List.mem_cons, List.not_mem_nil, or_false, Prod.mk.injEq] at hn
    split at hq
    · rename_i h1
      rw [List.mem_singleton] at hq
      subst hq
      rcases hn with ⟨rfl, rfl⟩ | ⟨rfl, rfl⟩ | ⟨rfl, rfl⟩ | ⟨rfl, rfl⟩
      · exact hmn h1
      all_goals simp at e
    · split at hq
      · rw [List.mem_singleton] at hq
        subst hq
        rcases hn with ⟨rfl, rfl⟩ | ⟨rfl, rfl⟩ | ⟨rfl, rfl⟩ | ⟨rfl, rfl⟩ <;> simp at e
      · split at hq
        · rename_i h1
          rw [List.mem_singleton] at hq
          subst hq
          rcases hn with ⟨rfl, rfl⟩ | ⟨rfl, rfl⟩ | ⟨rfl, rfl⟩ | ⟨rfl, rfl⟩
          · simp at e
          · exact hmn h1
          all_goals simp at e
        · split at hq
          · rename_i h1
            rcases hn with ⟨rfl, rfl⟩ | ⟨rfl, rfl⟩ | ⟨rfl, rfl⟩ | ⟨rfl, rfl⟩
            · have := info_keys p.2 "url" (by decide)
              rw [List.filter_eq_nil_iff] at this
              exact this q hq (by simpa using e)
            · have := info_keys p.2 "creation_date" (by decide)
              rw [List.filter_eq_nil_iff] at this
              exact this q hq (by simpa using e)
            · exact hmn h1
            · exact hmn h1
          · cases hq

theorem found_name {l : BenPairs Int Bytes} {n : String} {p : Ben Int Bytes × Ben Int Bytes} (h : (benList l).find? (fun p => torrentName p.1 = some (asc n)) = some p) :
    Torrent.nameOf (benShown p.1) = some (asc n) := by
  rw [name_shown]
  simpa using List.find?_some h

/-- **C169.** The URL told is the one that announces. -/
theorem C169_url (cfg : Config) (env : Env) (hw : Writes env) (hz : WritesSize env) (l : BenPairs Int Bytes) (hd : TorrentDistinct l) :
    toldFor (Torrent.extract cfg env (benShown (.dict l))) "url" = torrentText cfg (torrentGet "announce" l) := by
  obtain ⟨g, h1, h3⟩ := torrent_core cfg env hw hz l
  rw [h1, told_filled env _ g _ _ (reg_url env), h3, valsFor, root_only l hd "url" "announce" (root_other _ _ (by decide)), torrentGet]
  cases hf : (benList l).find? fun p => torrentName p.1 = some (asc "announce") with
  | none => rfl
  | some p =>
    rw [Option.map_some, Option.elim_some, ← text_shown, ← add_plain cfg env "url" _ (reg_url env) rfl rfl rfl _ (plain_value _), Torrent.rootItem, found_name hf]
    simp only [if_true]
    rfl

/-- **C169.** The date told is the number of seconds since 1970, if it is one of 32 bits (and of the years that are told). -/
theorem C169_date (cfg : Config) (env : Env) (hw : Writes env) (hz : WritesSize env) (l : BenPairs Int Bytes) (hd : TorrentDistinct l) :
    toldFor (Torrent.extract cfg env (benShown (.dict l))) "creation_date" =
      match torrentGet "creation_date" l with
      | some (.int n) =>
        match Hachoir.Time.timestampUNIX n with
        | .ok d => if dateTold d then [.datetime d none] else []
        | .error _ => []
      | _ => [] := by
  obtain ⟨g, h1, h3⟩ := torrent_core cfg env hw hz l
  rw [h1, told_filled env _ g _ _ (reg_creation env), h3, valsFor, root_only l hd "creation_date" "creation_date" (root_other _ _ (by decide)), torrentGet]
  cases hf : (benList l).find? fun p => torrentName p.1 = some (asc "creation_date") with
  | none => rfl
  | some p =>
    have e := moment_vals cfg env hw "creation_date" (.inl rfl) _ (torrent_moment (benShown p.2))
    have d1 : ¬ asc "creation_date" = asc "announce" := by decide +kernel
    have d2 : ¬ asc "creation_date" = asc "comment" := by decide +kernel
    rw [Option.map_some, Option.elim_some, Torrent.rootItem, found_name hf]
    simp only [if_neg d1, if_neg d2, if_true]
    refine Eq.trans ?_ (e.trans ?_)
    · rfl
    · cases p.2 with
      | int n =>
        rw [benShown, Torrent.dateValue]
        simp only
        cases Hachoir.Time.timestampUNIX n <;> rfl
      | str b => rw [benShown]; rfl
      | list b => rw [benShown]; rfl
      | dict b => rw [benShown]; rfl

/-- The items of the dictionary `info`. -/
theorem info_root (l : BenPairs Int Bytes) (hd : TorrentDistinct l) (hi : InfoDistinct l) (k n : String) (hk : (k, n) ∈ [("file_size", "length"), ("filename", "name")]) :
    (torrentItems l).filter (fun q => decide (q.1 = k)) = (torrentInfo n l).elim [] fun v => [(k, .value (Torrent.valueOf (benShown v)))] := by
  have hk' : (k, "info") ∈ [("url", "announce"), ("creation_date", "creation_date"), ("file_size", "info"), ("filename", "info")] := by
    simp only [List.mem_cons, List.not_mem_nil, or_false, Prod.mk.injEq] at hk
    rcases hk with ⟨rfl, rfl⟩ | ⟨rfl, rfl⟩ <;> decide
  rw [root_only l hd k "info" (root_other k "info" hk'), torrentInfo]
  cases hf : (benList l).find? fun p => torrentName p.1 = some (asc "info") with
  | none => rw [torrentGet, hf]; rfl
  | some p =>
    have hg : torrentGet "info" l = some p.2 := by rw [torrentGet, hf]; rfl
    have d1 : ¬ asc "info" = asc "announce" := by decide +kernel
    have d2 : ¬ asc "info" = asc "comment" := by decide +kernel
    have d3 : ¬ asc "info" = asc "creation_date" := by decide +kernel
    rw [hg, Option.elim_some, Torrent.rootItem, found_name hf]
    simp only [if_neg d1, if_neg d2, if_neg d3, if_true]
    cases hp : p.2 with
    | int n => rw [benShown]; rfl
    | str b => rw [benShown]; rfl
    | list b => rw [benShown]; rfl
    | dict i =>
      rw [hp] at hg
      rw [benShown, Torrent.infoItems, items_shown, List.flatMap_map]
      have e1 : ¬ asc "name" = asc "length" := by decide +kernel
      have ho : ∀ q : Ben Int Bytes × Ben Int Bytes, torrentName q.1 ≠ some (asc n) → (Torrent.infoItem (benShown q.1, benShown q.2)).filter (fun q => decide (q.1 = k)) = [] := by
        intro q hq
        rw [List.filter_eq_nil_iff]
        intro x hx e
        have e : x.1 = k := by simpa using e
        rw [← name_shown] at hq
        unfold Torrent.infoItem at hx
        split at hx
        · cases hx
        · rename_i m hm
          rw [hm] at hq
          have hmn : m ≠ asc n := fun e => hq (congrArg some e)
          simp only [List.mem_cons, List.not_mem_nil, or_false, Prod.mk.injEq] at hk
          split at hx
          · rename_i h1
            rw [List.mem_singleton] at hx
            subst hx
            rcases hk with ⟨rfl, rfl⟩ | ⟨rfl, rfl⟩
            · exact hmn h1
            · simp at e
          · split at hx
            · rename_i h1
              rw [List.mem_singleton] at hx
              subst hx
              rcases hk with ⟨rfl, rfl⟩ | ⟨rfl, rfl⟩
              · simp at e
              · exact hmn h1
            · split at hx
              · rw [List.mem_singleton] at hx
                subst hx
                rcases hk with ⟨rfl, rfl⟩ | ⟨rfl, rfl⟩ <;> simp at e
              · cases hx
      rw [only_one (fun p : Ben Int Bytes × Ben Int Bytes => torrentName p.1) _ _ (asc n) ho _ (hi i hg)]
      simp only
      rw [torrentGet]
      cases hq : (benList i).find? fun p => torrentName p.1 = some (asc n) with
      | none => rfl
      | some q =>
        rw [Option.map_some, Option.elim_some, Option.elim_some, Torrent.infoItem, found_name hq]
        simp only [List.mem_cons, List.not_mem_nil, or_false, Prod.mk.injEq] at hk
        rcases hk with ⟨rfl, rfl⟩ | ⟨rfl, rfl⟩
        · simp only [if_true]; rfl
        · simp only [if_neg e1, if_true]; rfl

/-- **C169.** The file name told is the name in the dictionary `info`. -/
theorem C169_name (cfg : Config) (env : Env) (hw : Writes env) (hz : WritesSize env) (l : BenPairs Int Bytes) (hd : TorrentDistinct l) (hi : InfoDistinct l) :
    toldFor (Torrent.extract cfg env (benShown (.dict l))) "filename" = torrentText cfg (torrentInfo "name" l) := by
  obtain ⟨g, h1, h3⟩ := torrent_core cfg env hw hz l
  rw [h1, told_filled env _ g _ _ (reg_filename env), h3, valsFor, info_root l hd hi "filename" "name" (by decide)]
  cases torrentInfo "name" l with
  | none => rfl
  | some v => rw [← text_shown, ← add_plain cfg env "filename" _ (reg_filename env) rfl rfl rfl _ (plain_value _)]; rfl

/-- **C169.** The size told is the length in the dictionary `info`; there is none for torrents of many files. -/
theorem C169_size (cfg : Config) (env : Env) (hw : Writes env) (hz : WritesSize env) (l : BenPairs Int Bytes) (hd : TorrentDistinct l) (hi : InfoDistinct l) :
    toldFor (Torrent.extract cfg env (benShown (.dict l))) "file_size" =
      match torrentInfo "length" l with
      | some (.int n) => [.num (.int n)]
      | _ => [] := by
  obtain ⟨g, h1, h3⟩ := torrent_core cfg env hw hz l
  rw [h1, told_filled env _ g _ _ (reg_file_size env), h3, valsFor, info_root l hd hi "file_size" "length" (by decide)]
  cases torrentInfo "length" l with
  | none => rfl
  | some v =>
    refine ((size_vals cfg env hz _ (plain_value (benShown v))).2).trans ?_
    cases v with
    | int n => rw [benShown]; rfl
    | str b =>
      rw [benShown]
      cases shownStr b <;> rfl
    | list b => rw [benShown]; rfl
    | dict b => rw [benShown]; rfl

/-! ### Comments -/

/-- The comment that the size of the pieces makes. -/
def pieceComment : Ben Int Bytes → Text
  | .int n => txt "Piece length: " ++ (humanFilesize n).map UInt8.toNat
  | .str b => if 1 ≤ b.length ∧ b.length < 512 then txt "Piece length: " else txt "Piece length: None"
  | _ => txt "Piece length: None"

/-- The comments of the dictionary `info`. -/
def infoComments : Ben Int Bytes → List Text
  | .dict i => (benList i).filterMap fun p => if torrentName p.1 = some (asc "piece_length") then some (pieceComment p.2) else none
  | _ => []

/-- The comments of a torrent, in its order: comment and size of pieces. -/
def torrentComments (l : BenPairs Int Bytes) : List Text :=
  (benList l).flatMap fun p =>
    if torrentName p.1 = some (asc "comment") then
      match p.2 with
      | .str b => if 1 ≤ b.length ∧ b.length < 512 then [b.map UInt8.toNat] else []
      | _ => []
    else if torrentName p.1 = some (asc "info") then infoComments p.2
    else []

/-- The texts among values for comments. -/
def commentTexts : List (String × Arg) → List Text := List.filterMap fun q =>
  match q.2 with
  | .value (.text t) => some t
  | _ => none

theorem fold_texts (cfg : Config) (env : Env) : ∀ (l : List (String × Arg)) (vs : List Item), (∀ q ∈ l, ∃ v, Plain v ∧ q = ("comment", .value v)) →
    l.foldl (fun l p => addVals cfg env "comment" p.2 l) vs =
      ((commentTexts l).map fun t => (("comment", .value (.text t)) : String × Arg)).foldl (fun l p => addVals cfg env "comment" p.2 l) vs
  | [], _, _ => rfl
  | q :: l, vs, h => by
    obtain ⟨v, hv, rfl⟩ := h q (List.mem_cons_self ..)
    have ih := fun vs => fold_texts cfg env l vs fun q hq => h q (List.mem_cons_of_mem _ hq)
    rw [List.foldl_cons]
    have skip : (∀ t, v ≠ .text t) → addVals cfg env "comment" (.value v) vs = vs := by
      intro hn
      unfold addVals
      rw [reg_comment]
      simp only
      rcases str_candidate cfg { key := "comment", priority := 902, description := "Comment", type := some [.str], plainText := Metadata.plainText env, values := vs } rfl rfl v hv with ⟨h, -⟩ | ⟨t, -, e⟩
      · rw [Data.add, h]
        rfl
      · cases v with
        | text t => exact absurd rfl (hn t)
        | _ => cases e
    cases v with
    | text t =>
      rw [show commentTexts (("comment", .value (.text t)) :: l) = t :: commentTexts l from rfl, List.map_cons, List.foldl_cons]
      exact ih _
    | none => rw [skip (by simp)]; exact ih vs
    | num n => rw [skip (by simp)]; exact ih vs
    | _ => exact absurd hv (by simp [Plain])

theorem piece_shown (v : Ben Int Bytes) : txt "Piece length: " ++ Torrent.pieceText (benShown v) = pieceComment v := by
  cases v with
  | int n => rw [benShown]; rfl
  | list l => rw [benShown]; exact (by decide +kernel : txt "Piece length: " ++ txt "None" = txt "Piece length: None")
  | dict l => rw [benShown]; exact (by decide +kernel : txt "Piece length: " ++ txt "None" = txt "Piece length: None")
  | str b =>
    rw [benShown, shownStr, pieceComment]
    by_cases h : b.length = 0 ∨ 512 ≤ b.length
    · rw [if_pos h, if_neg (by omega)]; decide +kernel
    · rw [if_neg h, if_pos (by omega)]; exact List.append_nil _

theorem info_comments (v : Ben Int Bytes) : commentTexts ((Torrent.infoItems (benShown v)).filter fun q => decide (q.1 = "comment")) = infoComments v ∧
    ∀ q ∈ (Torrent.infoItems (benShown v)).filter (fun q => decide (q.1 = "comment")), ∃ v, Plain v ∧ q = ("comment", .value v) := by
  cases v with
  | int n => rw [benShown]; exact ⟨rfl, by simp [Torrent.infoItems]⟩
  | str n => rw [benShown]; exact ⟨rfl, by simp [Torrent.infoItems]⟩
  | list n => rw [benShown]; exact ⟨rfl, by simp [Torrent.infoItems]⟩
  | dict i =>
    rw [benShown, Torrent.infoItems, items_shown, List.flatMap_map, infoComments]
    have one : ∀ p : Ben Int Bytes × Ben Int Bytes, (Torrent.infoItem (benShown p.1, benShown p.2)).filter (fun q => decide (q.1 = "comment")) =
        if torrentName p.1 = some (asc "piece_length") then [("comment", .value (.text (pieceComment p.2)))] else [] := by
      intro p
      have d1 : ¬ asc "piece_length" = asc "length" := by decide +kernel
      have d2 : ¬ asc "piece_length" = asc "name" := by decide +kernel
      rw [Torrent.infoItem, name_shown]
      cases torrentName p.1 with
      | none => rfl
      | some n =>
        simp only [Option.some.injEq]
        by_cases h : n = asc "piece_length"
        · subst h
          rw [if_neg d1, if_neg d2, if_pos rfl, if_pos rfl, piece_shown]
          rfl
        · rw [if_neg h, if_neg h]
          split
          · rfl
          · split <;> rfl
    generalize benList i = l
    induction l with
    | nil => exact ⟨rfl, by simp⟩
    | cons p l ih =>
      rw [List.flatMap_cons, List.filter_append, one]
      by_cases h : torrentName p.1 = some (asc "piece_length")
      · rw [if_pos h, List.filterMap_cons_some (b := pieceComment p.2) (by rw [if_pos h])]
        refine ⟨?_, ?_⟩
        · rw [← ih.1]; rfl
        · intro q hq
          rcases List.mem_append.1 hq with hq | hq
          · rw [List.mem_singleton] at hq
            exact ⟨.text (pieceComment p.2), trivial, hq⟩
          · exact ih.2 q hq
      · rw [if_neg h, List.filterMap_cons_none (by rw [if_neg h])]
        exact ih

theorem torrent_comments (l : BenPairs Int Bytes) : commentTexts ((torrentItems l).filter fun q => decide (q.1 = "comment")) = torrentComments l ∧
    ∀ q ∈ (torrentItems l).filter (fun q => decide (q.1 = "comment")), ∃ v, Plain v ∧ q = ("comment", .value v) := by
  rw [torrentItems, torrentComments]
  have one : ∀ p : Ben Int Bytes × Ben Int Bytes, (Torrent.rootItem (benShown p.1, benShown p.2)).filter (fun q => decide (q.1 = "comment")) =
      if torrentName p.1 = some (asc "comment") then [("comment", .value (Torrent.valueOf (benShown p.2)))]
      else if torrentName p.1 = some (asc "info") then (Torrent.infoItems (benShown p.2)).filter (fun q => decide (q.1 = "comment")) else [] := by
    intro p
    have d1 : ¬ asc "comment" = asc "announce" := by decide +kernel
    have d2 : ¬ asc "info" = asc "announce" := by decide +kernel
    have d3 : ¬ asc "info" = asc "comment" := by decide +kernel
    have d4 : ¬ asc "info" = asc "creation_date" := by decide +kernel
    rw [Torrent.rootItem, name_shown]
    cases torrentName p.1 with
    | none => rfl
    | some n =>
      simp only [Option.some.injEq]
      by_cases h : n = asc "comment"
      · subst h
        rw [if_neg d1, if_pos rfl, if_pos rfl]
        rfl
      · rw [if_neg h, if_neg h]
        by_cases h' : n = asc "info"
        · subst h'
          rw [if_neg d2, if_neg d4, if_pos rfl, if_pos rfl]
        · rw [if_neg h', if_neg h']
          split
          · rfl
          · split <;> rfl
  generalize benList l = l
  induction l with
  | nil => exact ⟨rfl, by simp⟩
  | cons p l ih =>
    rw [List.flatMap_cons, List.filter_append, one, List.flatMap_cons]
    by_cases h : torrentName p.1 = some (asc "comment")
    · rw [if_pos h, if_pos h]
      refine ⟨?_, ?_⟩
      · rw [← ih.1]
        cases p.2 with
        | int n => rw [benShown]; rfl
        | list n => rw [benShown]; rfl
        | dict n => rw [benShown]; rfl
        | str b =>
          rw [benShown, shownStr]
          by_cases h : b.length = 0 ∨ 512 ≤ b.length
          · rw [if_pos h]
            simp only
            rw [if_neg (by omega)]; rfl
          · rw [if_neg h]
            simp only
            rw [if_pos (by omega)]; rfl
      · intro q hq
        rcases List.mem_append.1 hq with hq | hq
        · rw [List.mem_singleton] at hq
          exact ⟨_, plain_value _, hq⟩
        · exact ih.2 q hq
    · rw [if_neg h, if_neg h]
      by_cases h' : torrentName p.1 = some (asc "info")
      · rw [if_pos h', if_pos h', commentTexts, List.filterMap_append]
        refine ⟨congr (congrArg _ (info_comments p.2).1) ih.1, fun q hq => ?_⟩
        rcases List.mem_append.1 hq with hq | hq
        · exact (info_comments p.2).2 q hq
        · exact ih.2 q hq
      · rw [if_neg h', if_neg h']
        exact ih

/-- **C169.** The comments told are the comment and the size of the pieces (of texts one of which begins with the other, C160_shorter, not both are told). -/
theorem C169_comments (cfg : Config) (env : Env) (hw : Writes env) (hz : WritesSize env) (l : BenPairs Int Bytes) (hb : ∀ t ∈ torrentComments l, normalizeString cfg t ≠ [])
    (hp : ((torrentComments l).map (toldName cfg)).Pairwise TextsApart) :
    toldFor (Torrent.extract cfg env (benShown (.dict l))) "comment" = (torrentComments l).map fun t => .text (toldName cfg t) := by
  obtain ⟨g, h1, h3⟩ := torrent_core cfg env hw hz l
  obtain ⟨e1, e2⟩ := torrent_comments l
  rw [h1, told_filled env _ g _ _ (reg_comment env), h3, valsFor, fold_texts cfg env _ _ e2, e1]
  have := fold_apart cfg env "comment" (by decide) (torrentComments l) [] hb (by simpa using hp)
  rw [List.map_nil, List.nil_append] at this
  rw [this, List.map_map, List.map_map]
  rfl

/-- **C169.** The same for the bytes of a file (C58). -/
theorem C169_file (l : BenPairs Int Bytes) (hl : BenOk (.dict l)) (s : Stream.InputStream) (hs : Stream.stringInputStream (benEncode (.dict l)) = .ok s) (cfg : Config) (env : Env)
    (hw : Writes env) (hz : WritesSize env) (hd : TorrentDistinct l) (hi : InfoDistinct l) :
    ∃ v, benEntry s ((benEncode (.dict l)).length + 1) 0 = .ok (v, 8 * (benEncode (.dict l)).length) ∧
      toldFor (Torrent.extract cfg env v) "url" = torrentText cfg (torrentGet "announce" l) ∧ toldFor (Torrent.extract cfg env v) "filename" = torrentText cfg (torrentInfo "name" l) :=
  ⟨_, C58_file _ hl s hs, C169_url cfg env hw hz l hd, C169_name cfg env hw hz l hd hi⟩

/-- A torrent: address, comment, date, and a file of 1000 bytes named `é`. -/
def smallTorrent : BenPairs Int Bytes :=
  .cons (.str (asc "announce")) (.str (asc "http://example.org/announce")) <| .cons (.str (asc "comment")) (.str (asc "nothing")) <|
    .cons (.str (asc "creation date")) (.int 1154175644) <|
    .cons (.str (asc "info")) (.dict (.cons (.str (asc "length")) (.int 1000) <| .cons (.str (asc "name")) (.str [0xC3, 0xA9]) <|
      .cons (.str (asc "piece length")) (.int 262144) <| .cons (.str (asc "pieces")) (.str (List.replicate 20 7)) .nil)) .nil

theorem small_torrent : TorrentDistinct smallTorrent ∧ InfoDistinct smallTorrent := by
  constructor
  · unfold TorrentDistinct
    decide +kernel
  · intro i h
    have e : torrentGet "info" smallTorrent = some (.dict (.cons (.str (asc "length")) (.int 1000) <| .cons (.str (asc "name")) (.str [0xC3, 0xA9]) <|
      .cons (.str (asc "piece length")) (.int 262144) <| .cons (.str (asc "pieces")) (.str (List.replicate 20 7)) .nil)) := by decide +kernel
    rw [e] at h
    injection h with h
    injection h with h
    subst h
    unfold TorrentDistinct
    decide +kernel

example : torrentComments smallTorrent = [txt "nothing", txt "Piece length: 256.0 KB"] := by decide +kernel

example : BenOk (.dict smallTorrent) := by
  simp only [smallTorrent, BenOk, PairsOk]
  decide +kernel

/-- **C169** (disagreement): names are UTF-8 in torrents, but are told as ISO-8859-1: `é` is told as two characters. -/
theorem C169_utf8_wrong (env : Env) (hw : Writes env) (hz : WritesSize env) :
    toldFor (Torrent.extract {} env (benShown (.dict smallTorrent))) "filename" = [.text (txt "Ã©")] := by
  rw [C169_name {} env hw hz smallTorrent small_torrent.1 small_torrent.2]
  decide +kernel

/-- **C169** (disagreement): a name of 512 bytes or more is not told. -/
theorem C169_long (cfg : Config) (env : Env) (hw : Writes env) (hz : WritesSize env) (l : BenPairs Int Bytes) (hd : TorrentDistinct l) (hi : InfoDistinct l) (b : Bytes)
    (hn : torrentInfo "name" l = some (.str b)) (hb : 512 ≤ b.length) : toldFor (Torrent.extract cfg env (benShown (.dict l))) "filename" = [] := by
  rw [C169_name cfg env hw hz l hd hi, hn, torrentText, if_neg (by omega)]

end Hachoir.Props
