import Verif.Metadata.Program
import Verif.Props.Tar

/-!
# C202: version information of programs
-/

namespace Hachoir.Props
open Hachoir Hachoir.Metadata Hachoir.Metadata.Program

/-! ## Specification -/

def IsBlank (c : Nat) : Prop := c = 32 ∨ c = 0

/-- A text without the blanks and null characters at its ends. -/
def Bare (raw t : Text) : Prop :=
  ∃ before after, raw = before ++ t ++ after ∧ (∀ c ∈ before, IsBlank c) ∧ (∀ c ∈ after, IsBlank c) ∧ (∀ c ∈ t.head?, ¬ IsBlank c) ∧ ∀ c ∈ t.getLast?, ¬ IsBlank c

/-- A node that has a value for a key. -/
def NodeShows (n : Node) (k : String) (t : Text) : Prop := n.name = some k ∧ (∃ raw, n.value = some raw ∧ Bare raw t) ∧ t ≠ []

/-- The last value for a key. -/
def LastValue (ns : List Node) (k : String) (t : Text) : Prop := ∃ before n after, ns = before ++ n :: after ∧ NodeShows n k t ∧ ∀ m ∈ after, ∀ w, ¬ NodeShows m k w

/-- The attributes of the keys that have one. -/
def NamedKey (k a : String) : Prop :=
  (k = "ProductName" ∧ a = "title") ∨ (k = "LegalCopyright" ∧ a = "copyright") ∨ (k = "LegalTrademarks" ∧ a = "copyright") ∨ (k = "LegalTrademarks1" ∧ a = "copyright") ∨
    (k = "LegalTrademarks2" ∧ a = "copyright") ∨ (k = "CompanyName" ∧ a = "author") ∨ (k = "BuildDate" ∧ a = "creation_date") ∨ (k = "FileDescription" ∧ a = "title") ∨
    (k = "ProductVersion" ∧ a = "version")

/-- The keys that are not told. -/
def SilentKey (k : String) : Prop := k = "InternalName" ∨ k = "OriginalFilename" ∨ k = "FileVersion" ∨ k = "BuildVersion"

/-- What a value is told as. -/
def ToldAs (k : String) (v : Text) (a : String) (w : Text) : Prop :=
  (NamedKey k a ∧ w = v) ∨ ((∀ b, ¬ NamedKey k b) ∧ ¬ SilentKey k ∧ a = "comment" ∧ w = txt k ++ txt "=" ++ v)

/-! ## Values -/

theorem node_blank_iff (c : Nat) : (c == 32 || c == 0) = true ↔ IsBlank c := by simp [IsBlank]

theorem bare_iff (raw t : Text) : Field.stripText (fun c => c == 32 || c == 0) raw = t ↔ Bare raw t := by
  constructor
  · intro h
    subst h
    generalize hp : (fun c : Nat => c == 32 || c == 0) = p
    have hb : ∀ c, p c = true ↔ IsBlank c := by subst hp; exact node_blank_iff
    clear hp
    have key : ∀ l : Text, ∀ c ∈ (l.dropWhile p).head?, ¬ IsBlank c := by
      intro l c hc hi
      have := List.head?_dropWhile_not p l
      rw [Option.mem_def] at hc
      rw [hc] at this
      simp [(hb c).2 hi] at this
    refine ⟨raw.takeWhile p, ((raw.dropWhile p).reverse.takeWhile p).reverse, ?_, ?_, ?_, ?_, ?_⟩
    · rw [Field.stripText, List.append_assoc, ← List.reverse_append, List.takeWhile_append_dropWhile, List.reverse_reverse, List.takeWhile_append_dropWhile]
    · intro c hc; exact (hb c).1 (List.mem_takeWhile_imp hc)
    · intro c hc; exact (hb c).1 (List.mem_takeWhile_imp (List.mem_reverse.1 hc))
    · intro c hc
      refine key raw c ?_
      rw [Field.stripText] at hc
      have e : raw.dropWhile p = ((raw.dropWhile p).reverse.dropWhile p).reverse ++ ((raw.dropWhile p).reverse.takeWhile p).reverse := by
        rw [← List.reverse_append, List.takeWhile_append_dropWhile, List.reverse_reverse]
      rw [Option.mem_def] at hc ⊢
      rw [e, List.head?_append, hc]
      rfl
    · intro c hc
      rw [Field.stripText, List.getLast?_reverse] at hc
      exact key _ c hc
  · rintro ⟨before, after, rfl, h1, h2, h3, h4⟩
    refine strip_text _ _ _ _ (fun c hc => (node_blank_iff c).2 (h1 c hc)) (fun c hc => (node_blank_iff c).2 (h2 c hc)) (fun c hc => ?_) (fun c hc => ?_)
    · exact Bool.eq_false_iff.2 fun e => h3 c hc ((node_blank_iff c).1 e)
    · exact Bool.eq_false_iff.2 fun e => h4 c hc ((node_blank_iff c).1 e)

theorem look_put (k k' : String) (v : Text) (d : List (String × Text)) : look k (put k' v d) = if k' = k then some v else look k d := by
  induction d with
  | nil => rfl
  | cons p d ih =>
    rw [put]
    by_cases h : p.1 = k'
    · rw [if_pos h, look, look, h]
      by_cases h' : k' = k <;> simp [h']
    · rw [if_neg h, look, look, ih]
      by_cases h' : p.1 = k
      · rw [if_pos h', if_pos h', if_neg (fun e => h (h'.trans e.symm))]
      · rw [if_neg h', if_neg h']

theorem keys_put (k : String) (v : Text) (d : List (String × Text)) : ∀ x ∈ (put k v d).map Prod.fst, x = k ∨ x ∈ d.map Prod.fst := by
  induction d with
  | nil => intro x hx; left; simpa [put] using hx
  | cons p d ih =>
    intro x hx
    rw [put] at hx
    split at hx
    · rename_i h
      rw [List.map_cons, List.mem_cons] at hx ⊢
      rcases hx with h | h
      exacts [.inl h, .inr (.inr h)]
    · rw [List.map_cons, List.mem_cons] at hx ⊢
      rcases hx with h | h
      · exact .inr (.inl h)
      · rcases ih x h with h | h
        exacts [.inl h, .inr (.inr h)]

theorem nodup_put (k : String) (v : Text) (d : List (String × Text)) (h : (d.map Prod.fst).Nodup) : ((put k v d).map Prod.fst).Nodup := by
  induction d with
  | nil => simp [put]
  | cons p d ih =>
    rw [List.map_cons, List.nodup_cons] at h
    rw [put]
    split
    · rename_i e; subst e; rw [List.map_cons, List.nodup_cons]; exact h
    · rename_i e
      rw [List.map_cons, List.nodup_cons]
      refine ⟨fun hm => ?_, ih h.2⟩
      rcases keys_put k v d _ hm with h' | h'
      exacts [e h', h.1 h']

theorem mem_look (d : List (String × Text)) (h : (d.map Prod.fst).Nodup) (k : String) (v : Text) : (k, v) ∈ d ↔ look k d = some v := by
  induction d with
  | nil => simp [look]
  | cons p d ih =>
    rw [List.map_cons, List.nodup_cons] at h
    rw [List.mem_cons, look, ih h.2]
    by_cases e : p.1 = k
    · rw [if_pos e]
      constructor
      · rintro (h' | h')
        · rw [← h']
        · exact absurd (List.mem_map_of_mem (f := Prod.fst) ((ih h.2).2 h')) (e ▸ h.1)
      · intro h'; left; cases p; simp_all
    · rw [if_neg e]
      constructor
      · rintro (h' | h')
        · exact absurd (by rw [← h']) e
        · exact h'
      · exact .inr

/-- What one node does. -/
theorem use_node (d : List (String × Text)) (n : Node) :
    (∃ k v, NodeShows n k v ∧ useNode d n = put k v d) ∨ ((∀ k v, ¬ NodeShows n k v) ∧ useNode d n = d) := by
  rw [useNode]
  split
  · rename_i value key hv hn
    by_cases h : Field.stripText (fun c => c == 32 || c == 0) value = []
    · right
      refine ⟨?_, by simp only [if_pos h]⟩
      rintro k v ⟨-, ⟨raw, hr, hb⟩, h0⟩
      rw [hv] at hr
      cases hr
      exact h0 (((bare_iff _ _).2 hb).symm.trans h)
    · left
      exact ⟨key, _, ⟨hn, ⟨value, hv, (bare_iff _ _).1 rfl⟩, h⟩, by simp only [if_neg h]⟩
  · rename_i hx
    right
    refine ⟨?_, rfl⟩
    rintro k v ⟨hn, ⟨raw, hr, -⟩, -⟩
    exact hx raw k hr hn

theorem shows_inj {n : Node} {k k' : String} {v w : Text} (h : NodeShows n k v) (h' : NodeShows n k' w) : k = k' ∧ v = w := by
  obtain ⟨a, ⟨r, b, c⟩, -⟩ := h
  obtain ⟨a', ⟨r', b', c'⟩, -⟩ := h'
  rw [a] at a'; rw [b] at b'
  cases a'; cases b'
  exact ⟨rfl, ((bare_iff _ _).2 c).symm.trans ((bare_iff _ _).2 c')⟩

theorem last_snoc (ns : List Node) (n : Node) (k : String) (v : Text) : LastValue (ns ++ [n]) k v ↔ NodeShows n k v ∨ ((∀ w, ¬ NodeShows n k w) ∧ LastValue ns k v) := by
  constructor
  · rintro ⟨before, m, after, e, hs, hn⟩
    rcases List.eq_nil_or_concat after with rfl | ⟨l, x, rfl⟩
    · obtain ⟨-, e⟩ := List.append_inj' e rfl
      cases e
      exact .inl hs
    · rw [List.concat_eq_append, ← List.cons_append, ← List.append_assoc] at e
      obtain ⟨e1, e2⟩ := List.append_inj' e rfl
      cases e2
      exact .inr ⟨hn n (by simp), before, m, l, e1, hs, fun y hy => hn y (by simp [hy])⟩
  · rintro (h | ⟨h, before, m, after, rfl, hs, hn⟩)
    · exact ⟨ns, n, [], rfl, h, by simp⟩
    · refine ⟨before, m, after ++ [n], by simp, hs, fun y hy => ?_⟩
      rcases List.mem_append.1 hy with hy | hy
      · exact hn y hy
      · rw [List.mem_singleton] at hy; subst hy; exact h

theorem collected (ns : List Node) : ((collect ns).map Prod.fst).Nodup ∧ ∀ k v, look k (collect ns) = some v ↔ LastValue ns k v := by
  induction ns using List.reverseRecOn with
  | nil =>
    refine ⟨by simp [collect], fun k v => ⟨fun h => by simp [collect, look] at h, ?_⟩⟩
    rintro ⟨before, n, after, e, -⟩
    simp at e
  | append_singleton ns n ih =>
    have e : collect (ns ++ [n]) = useNode (collect ns) n := by rw [collect, List.foldl_append]; rfl
    rw [e]
    rcases use_node (collect ns) n with ⟨k', v', hs, hu⟩ | ⟨hs, hu⟩
    · rw [hu]
      refine ⟨nodup_put _ _ _ ih.1, fun k v => ?_⟩
      rw [look_put, last_snoc]
      by_cases hk : k' = k
      · subst hk
        rw [if_pos rfl]
        constructor
        · intro h; cases h; exact .inl hs
        · rintro (h | h)
          · rw [(shows_inj hs h).2]
          · exact absurd hs (h.1 _)
      · rw [if_neg hk, ih.2]
        constructor
        · exact fun h => .inr ⟨fun w hw => hk (shows_inj hs hw).1, h⟩
        · rintro (h | h)
          · exact absurd (shows_inj hs h).1 hk
          · exact h.2
    · rw [hu]
      refine ⟨ih.1, fun k v => ?_⟩
      rw [last_snoc, ih.2]
      exact ⟨fun h => .inr ⟨fun w => hs k w, h⟩, fun h => h.elim (fun h => absurd h (hs k v)) And.right⟩

/-! ## What is told -/

theorem lookup_iff (l : List (String × String)) (h : (l.map Prod.fst).Nodup) (k a : String) : l.lookup k = some a ↔ (k, a) ∈ l := by
  induction l with
  | nil => simp
  | cons p l ih =>
    obtain ⟨x, y⟩ := p
    rw [List.map_cons, List.nodup_cons] at h
    rw [List.lookup_cons, List.mem_cons]
    by_cases e : k = x
    · subst e
      simp only [beq_self_eq_true]
      constructor
      · intro h'; cases h'; exact .inl rfl
      · rintro (h' | h')
        · cases h'; rfl
        · exact absurd (List.mem_map_of_mem (f := Prod.fst) h') h.1
    · rw [beq_false_of_ne e]
      simp only
      rw [ih h.2]
      constructor
      · exact .inr
      · rintro (h' | h')
        · cases h'; exact absurd rfl e
        · exact h'

theorem node_named_iff (k a : String) : keyToAttr.lookup k = some a ↔ NamedKey k a := by
  rw [lookup_iff _ (by decide +kernel)]
  simp only [keyToAttr, List.mem_cons, Prod.mk.injEq, List.not_mem_nil, or_false, NamedKey]

theorem assign_iff (k : String) (v : Text) (a : String) (w : Text) : (a, w) ∈ assign (k, v) ↔ ToldAs k v a w := by
  have hs : k ∈ skipKey ↔ SilentKey k := by simp [skipKey, SilentKey]
  rw [assign]
  cases h : keyToAttr.lookup k with
  | some b =>
    have hb := (node_named_iff k b).1 h
    simp only [List.mem_singleton, Prod.mk.injEq]
    constructor
    · rintro ⟨rfl, rfl⟩; exact .inl ⟨hb, rfl⟩
    · rintro (⟨h', rfl⟩ | ⟨h', -⟩)
      · rw [(node_named_iff k a).2 h'] at h; cases h; exact ⟨rfl, rfl⟩
      · exact absurd hb (h' b)
  | none =>
    have hn : ∀ b, ¬ NamedKey k b := fun b hb => by rw [(node_named_iff k b).2 hb] at h; cases h
    simp only
    by_cases hk : k ∈ skipKey
    · rw [if_pos hk]
      simp only [List.not_mem_nil, false_iff]
      rintro (⟨h', -⟩ | ⟨-, h', -⟩)
      exacts [hn a h', h' (hs.1 hk)]
    · rw [if_neg hk, List.mem_singleton, Prod.mk.injEq]
      constructor
      · rintro ⟨rfl, rfl⟩; exact .inr ⟨hn, fun h' => hk (hs.2 h'), rfl, rfl⟩
      · rintro (⟨h', -⟩ | ⟨-, -, h1, h2⟩)
        exacts [absurd h' (hn a), ⟨h1, h2⟩]

theorem mem_collect (ns : List Node) (k : String) (v : Text) : (k, v) ∈ collect ns ↔ LastValue ns k v := (mem_look _ (collected ns).1 k v).trans ((collected ns).2 k v)

theorem assignAll_iff (d : List (String × Text)) (a : String) (w : Text) : (a, w) ∈ assignAll d ↔ ∃ k v, (k, v) ∈ d ∧ ToldAs k v a w := by
  rw [assignAll, List.mem_flatMap]
  constructor
  · rintro ⟨⟨k, v⟩, h, h'⟩; exact ⟨k, v, h, (assign_iff k v a w).1 h'⟩
  · rintro ⟨k, v, h, h'⟩; exact ⟨(k, v), h, (assign_iff k v a w).2 h'⟩

/-- **C202** What is told is, for every key, its last value that is not blank, without the blanks around it, and nothing else: as the attribute of the key or as a comment with the key. -/
theorem C202_told (ns : List Node) (a : String) (w : Text) : (a, w) ∈ readVersionInfo ns ↔ ∃ k v, LastValue ns k v ∧ ToldAs k v a w := by
  rw [readVersionInfo]
  split
  · rename_i product description hp hd
    have hp' := ((collected ns).2 _ _).1 hp
    have hd' := ((collected ns).2 _ _).1 hd
    rw [List.mem_cons, List.mem_cons, assignAll_iff]
    constructor
    · rintro (h | h | ⟨k, v, h, h'⟩)
      · cases h; exact ⟨_, _, hd', .inl ⟨.inr (.inr (.inr (.inr (.inr (.inr (.inr (.inl ⟨rfl, rfl⟩))))))), rfl⟩⟩
      · cases h; exact ⟨_, _, hp', .inl ⟨.inl ⟨rfl, rfl⟩, rfl⟩⟩
      · exact ⟨k, v, (mem_collect ns k v).1 (List.mem_of_mem_filter (List.mem_of_mem_filter h)), h'⟩
    · rintro ⟨k, v, h, h'⟩
      have hg := ((collected ns).2 k v).2 h
      by_cases h1 : k = "FileDescription"
      · subst h1
        rw [hd] at hg; cases hg
        have := (assign_iff _ _ _ _).2 h'
        left
        rw [assign, (node_named_iff _ "title").2 (.inr (.inr (.inr (.inr (.inr (.inr (.inr (.inl ⟨rfl, rfl⟩))))))))] at this
        exact List.mem_singleton.1 this
      · by_cases h2 : k = "ProductName"
        · subst h2
          rw [hp] at hg; cases hg
          have := (assign_iff _ _ _ _).2 h'
          right; left
          rw [assign, (node_named_iff _ "title").2 (.inl ⟨rfl, rfl⟩)] at this
          exact List.mem_singleton.1 this
        · exact .inr (.inr ⟨k, v, List.mem_filter.2 ⟨List.mem_filter.2 ⟨(mem_collect ns k v).2 h, by simpa using h1⟩, by simpa using h2⟩, h'⟩)
  · rw [assignAll_iff]
    exact ⟨fun ⟨k, v, h, h'⟩ => ⟨k, v, (mem_collect ns k v).1 h, h'⟩, fun ⟨k, v, h, h'⟩ => ⟨k, v, (mem_collect ns k v).2 h, h'⟩⟩

/-- **C202** With a description of the file and a name of the product, the titles are the description and then the name, wherever they are among the nodes, and there is no other title. -/
theorem C202_titles (ns : List Node) (description product : Text) (hd : LastValue ns "FileDescription" description) (hp : LastValue ns "ProductName" product) :
    ∃ rest, readVersionInfo ns = ("title", description) :: ("title", product) :: rest ∧ ∀ x ∈ rest, x.1 ≠ "title" := by
  rw [readVersionInfo]
  rw [((collected ns).2 _ _).2 hd, ((collected ns).2 _ _).2 hp]
  refine ⟨_, rfl, ?_⟩
  rintro ⟨a, w⟩ hx rfl
  obtain ⟨k, v, hm, ht⟩ := (assignAll_iff _ _ _).1 hx
  have h1 := (List.mem_filter.1 hm).2
  have h2 := (List.mem_filter.1 (List.mem_of_mem_filter hm)).2
  simp only [decide_eq_true_eq, ne_eq] at h1 h2
  rcases ht with ⟨h, -⟩ | ⟨-, -, h, -⟩
  · simp [NamedKey, h1, h2] at h
  · simp at h

theorem shows_plain (k : String) (t : Text) (h0 : t ≠ []) (h1 : ∀ c ∈ t.head?, ¬ IsBlank c) (h2 : ∀ c ∈ t.getLast?, ¬ IsBlank c) : NodeShows ⟨some k, some (t ++ [32])⟩ k t :=
  ⟨rfl, ⟨_, rfl, [], [32], by simp, by simp, by simp [IsBlank], h1, h2⟩, h0⟩

/-- A name, a description and the name again, with blanks behind. -/
example : ∃ rest, readVersionInfo [⟨some "ProductName", some [65, 32]⟩, ⟨some "FileDescription", some [66, 32]⟩, ⟨some "ProductName", some [67, 32]⟩, ⟨some "ProductName", some [0]⟩] =
    ("title", [66]) :: ("title", [67]) :: rest ∧ ∀ x ∈ rest, x.1 ≠ "title" := by
  have none_shown : ∀ k w, ¬ NodeShows ⟨some "ProductName", some [0]⟩ k w := by
    rintro k w ⟨-, ⟨raw, e, hb⟩, h0⟩
    cases e
    exact h0 (((bare_iff _ _).2 hb).symm.trans (by decide))
  refine C202_titles _ _ _ ⟨[⟨some "ProductName", some [65, 32]⟩], _, _, rfl, shows_plain "FileDescription" [66] (by simp) (by simp [IsBlank]) (by simp [IsBlank]), ?_⟩
    ⟨[⟨some "ProductName", some [65, 32]⟩, ⟨some "FileDescription", some [66, 32]⟩], _, _, rfl, shows_plain "ProductName" [67] (by simp) (by simp [IsBlank]) (by simp [IsBlank]), ?_⟩
  · intro m hm w hs
    simp only [List.mem_cons, List.not_mem_nil, or_false] at hm
    rcases hm with rfl | rfl
    · exact absurd hs.1 (by simp)
    · exact none_shown _ _ hs
  · intro m hm w hs
    simp only [List.mem_cons, List.not_mem_nil, or_false] at hm
    subst hm
    exact none_shown _ _ hs

/-- Another key is told as a comment. -/
example : ("comment", txt "Build=" ++ [55]) ∈ readVersionInfo [⟨some "Build", some [55, 32]⟩] :=
  (C202_told _ _ _).2 ⟨"Build", [55], ⟨[], _, [], rfl, shows_plain "Build" [55] (by simp) (by simp [IsBlank]) (by simp [IsBlank]), by simp⟩,
    .inr ⟨by simp [NamedKey], by simp [SilentKey], rfl, rfl⟩⟩

end Hachoir.Props
