import Verif.Strip.Strip

/-!
# C71: a stripped RIFF file is a RIFF file; C72: the other strippers
-/

set_option linter.unusedVariables false

namespace Hachoir.Props
open Hachoir Hachoir.Strip

/-! ### Specification -/

/-- Chunks are padded to an even number of bytes. -/
def evenUp (n : Nat) : Nat := n + n % 2

/-- The first fields of a chunk: a tag of four bytes and the size of the content. -/
def Header (kids : List Node) (tag : Bytes) (size : Nat) (rest : List Node) : Prop :=
  kids = .leaf "tag" 32 (.text tag) :: .leaf "size" 32 (.int size) :: rest ∧ tag.length = 4

/-- "LIST" and "JUNK". -/
def tagList : Bytes := [0x4c, 0x49, 0x53, 0x54]
def tagJunk : Bytes := [0x4a, 0x55, 0x4e, 0x4b]

/-- The names of chunks that may be removed. -/
def removable : List String := ["nb_sample", "info", "index"]

/-- The content of a list, if there is any, begins with a sub-tag of four bytes. -/
def Labelled (kids : List Node) : Prop :=
  ∀ a b rest, kids = a :: b :: rest → rest = [] ∨ ∃ v rest', rest = .leaf "subtag" 32 v :: rest'

mutual
/-- A chunk whose size field tells the size of its content, and so for the chunks in a list
(but for the movie, whose chunks are not looked at).  Beside chunks there may be fields. -/
def Sound : Node → Prop
  | .leaf n _ _ => n ∉ removable
  | .set n kids =>
    (∃ tag size rest, Header kids tag size rest ∧ totalBits rest = 8 * evenUp size) ∧
    ((∃ size rest, Header kids tagList size rest) → n ≠ "movie" → Labelled kids ∧ AllSound kids)
def AllSound : List Node → Prop
  | [] => True
  | k :: ks => Sound k ∧ AllSound ks
end

/-- A RIFF file: signature, size of what follows, type, chunks; there may be further bytes
behind the size that is told. -/
def SoundFile (file : Node) : Prop :=
  ∃ name signature size type chunks after, file = .set name (.leaf "signature" 32 signature ::
      .leaf "filesize" 32 (.int size) :: .leaf "type" 32 type :: (chunks ++ after)) ∧
    totalBits chunks + 32 = 8 * size ∧ AllSound chunks ∧
    ∀ k ∈ after, ∃ b v, k = .leaf "padding[0]" b v

/-- The chunks to remove. -/
def Gone (level : Level) (k : Node) : Prop :=
  (level.useless = true ∧ k.name = "nb_sample") ∨ (level.metadata = true ∧ k.name = "info") ∨
  (level.index = true ∧ k.name = "index") ∨
  (level.useless = true ∧ ∃ n kids size rest, k = .set n kids ∧ Header kids tagJunk size rest)

/-- The lists that are entered. -/
def Entered (k : Node) : Prop := ∃ n kids size rest, k = .set n kids ∧ Header kids tagList size rest ∧ n ≠ "movie"

/-- `new` is `old` without the chunks to remove, at any depth of lists; nothing else is
changed but the sizes of lists. -/
inductive Cut (gone : Node → Prop) : List Node → List Node → Prop
  | nil : Cut gone [] []
  | drop (k : Node) (ks ks' : List Node) : gone k → Cut gone ks ks' → Cut gone (k :: ks) ks'
  | keep (k : Node) (ks ks' : List Node) : ¬ gone k → ¬ Entered k → Cut gone ks ks' →
      Cut gone (k :: ks) (k :: ks')
  | list (n : String) (size size' : Nat) (rest rest' ks ks' : List Node) :
      ¬ gone (.set n (.leaf "tag" 32 (.text tagList) :: .leaf "size" 32 (.int size) :: rest)) →
      n ≠ "movie" → Cut gone rest rest' → Cut gone ks ks' →
      Cut gone (.set n (.leaf "tag" 32 (.text tagList) :: .leaf "size" 32 (.int size) :: rest) :: ks)
        (.set n (.leaf "tag" 32 (.text tagList) :: .leaf "size" 32 (.int size') :: rest') :: ks')

/-! ### Helper lemmas -/

theorem totalBits_append (a b : List Node) : totalBits (a ++ b) = totalBits a + totalBits b := by
  induction a with
  | nil => simp [totalBits]
  | cons k ks ih => simp only [List.cons_append, totalBits, ih]; omega

theorem allSound_append (a b : List Node) : AllSound (a ++ b) ↔ AllSound a ∧ AllSound b := by
  induction a with
  | nil => simp [AllSound]
  | cons k ks ih => simp only [List.cons_append, AllSound, ih, and_assoc]

theorem riffNames_mem (level : Level) (n : String) : n ∈ riffNames level ↔
    (level.useless = true ∧ n = "nb_sample") ∨ (level.metadata = true ∧ n = "info") ∨
    (level.index = true ∧ n = "index") := by
  unfold riffNames
  cases level.useless <;> cases level.metadata <;> cases level.index <;> simp

theorem riffNames_removable (level : Level) (n : String) (h : n ∈ riffNames level) : n ∈ removable := by
  rw [riffNames_mem] at h
  unfold removable
  rcases h with ⟨_, rfl⟩ | ⟨_, rfl⟩ | ⟨_, rfl⟩ <;> simp

theorem header_tag {n : String} {kids : List Node} {tag : Bytes} {size : Nat} {rest : List Node}
    (h : Header kids tag size rest) : itemValue "tag" (.set n kids) = .ok (.text tag) := by
  rw [h.1]; rfl

theorem header_unique {kids : List Node} {tag tag' : Bytes} {size size' : Nat} {rest rest' : List Node}
    (h : Header kids tag size rest) (h' : Header kids tag' size' rest') :
    tag = tag' ∧ size = size' ∧ rest = rest' := by
  have e := h.1.symm.trans h'.1
  injection e with e1 e2
  injection e2 with e2 e3
  injection e1 with _ _ e1
  injection e1 with e1
  injection e2 with _ _ e2
  injection e2 with e2
  exact ⟨e1, e2, e3⟩

theorem inJunk_iff (tag : Bytes) (h : tag.length = 4) : inJunk tag = true ↔ tag = tagJunk := by
  match tag, h with
  | [a, b, c, d], _ =>
    unfold inJunk tagJunk
    simp [List.range_succ, List.isPrefixOf]

/-- A chunk has an even number of bytes. -/
theorem sound_even (k : Node) (n : String) (kids : List Node) (hk : k = .set n kids) (h : Sound k) :
    k.bits % 16 = 0 := by
  subst hk
  rw [Sound] at h
  obtain ⟨⟨tag, size, rest, hh, hb⟩, _⟩ := h
  rw [hh.1]
  simp only [Node.bits, totalBits, hb]
  unfold evenUp
  omega

theorem action_leaf (level : Level) (nm : String) (b : Nat) (v : Val) (h : nm ∉ removable) :
    action level.useless (riffNames level) (.leaf nm b v) = .ok .keep := by
  unfold action
  rw [if_neg (show ¬ (Node.leaf nm b v).name ∈ riffNames level from fun h' => h (riffNames_removable level nm h'))]
  rfl

theorem stripNode_leaf (level : Level) (nm : String) (b : Nat) (v : Val) (h : nm ∉ removable) :
    stripNode level.useless (riffNames level) (.leaf nm b v) = .ok (some (.leaf nm b v), 0) := by
  rw [stripNode, action_leaf level nm b v h]

theorem stripSub_leaf (level : Level) (nm : String) (b : Nat) (v : Val) (h : nm ∉ removable)
    (ks ks' : List Node) (n : Nat) (e : stripSub level.useless (riffNames level) ks = .ok (ks', n)) :
    stripSub level.useless (riffNames level) (.leaf nm b v :: ks) = .ok (.leaf nm b v :: ks', n) := by
  rw [stripSub, stripNode_leaf level nm b v h, e]
  simp

theorem stripSub_leaves (level : Level) : ∀ (ks : List Node), (∀ k ∈ ks, ∃ b v, k = .leaf "padding[0]" b v) →
    stripSub level.useless (riffNames level) ks = .ok (ks, 0) := by
  intro ks
  induction ks with
  | nil => intro _; rw [stripSub]
  | cons k ks ih =>
    intro h
    obtain ⟨b, v, rfl⟩ := h k (by simp)
    exact stripSub_leaf level _ b v (by decide) ks ks 0 (ih (fun x hx => h x (by simp [hx])))

theorem stripSub_append (level : Level) (b b' : List Node) (m : Nat)
    (hb : stripSub level.useless (riffNames level) b = .ok (b', m)) : ∀ (a a' : List Node) (n : Nat),
    stripSub level.useless (riffNames level) a = .ok (a', n) →
    stripSub level.useless (riffNames level) (a ++ b) = .ok (a' ++ b', n + m) := by
  intro a
  induction a with
  | nil =>
    intro a' n h
    rw [stripSub] at h
    cases h
    simpa using hb
  | cons k ks ih =>
    intro a' n h
    rw [stripSub] at h
    cases hk : stripNode level.useless (riffNames level) k with
    | error e => rw [hk] at h; cases h
    | ok r =>
      obtain ⟨k', r⟩ := r
      cases hs : stripSub level.useless (riffNames level) ks with
      | error e => rw [hk, hs] at h; cases h
      | ok q =>
        obtain ⟨ks', q⟩ := q
        rw [hk, hs] at h
        simp only at h
        cases k' with
        | none =>
          cases h
          rw [List.cons_append, stripSub, hk, ih ks' q hs]
          simp [Nat.add_assoc]
        | some k' =>
          cases h
          rw [List.cons_append, stripSub, hk, ih ks' q hs]
          simp [Nat.add_assoc]

/-- What becomes of one field. -/
theorem gone_action (level : Level) (k : Node) (hs : Sound k) :
    (Gone level k ∧ action level.useless (riffNames level) k = .ok .remove ∧ ∃ n kids, k = .set n kids) ∨
    (¬ Gone level k ∧ Entered k ∧ action level.useless (riffNames level) k = .ok .enter) ∨
    (¬ Gone level k ∧ ¬ Entered k ∧ action level.useless (riffNames level) k = .ok .keep) := by
  cases k with
  | leaf n b v =>
    right; right
    rw [Sound] at hs
    have hn : n ∉ riffNames level := fun h => hs (riffNames_removable level n h)
    refine ⟨?_, ?_, ?_⟩
    · rintro (h | h | h | ⟨_, n', kids, size, rest, h, _⟩)
      · exact hn ((riffNames_mem level n).2 (.inl h))
      · exact hn ((riffNames_mem level n).2 (.inr (.inl h)))
      · exact hn ((riffNames_mem level n).2 (.inr (.inr h)))
      · cases h
    · rintro ⟨n', kids, size, rest, h, _⟩; cases h
    · exact action_leaf level n b v hs
  | set n kids =>
    have hs' := hs
    rw [Sound] at hs'
    obtain ⟨⟨tag, size, rest, hh, hb⟩, _⟩ := hs'
    by_cases hn : n ∈ riffNames level
    · left
      refine ⟨?_, ?_, n, kids, rfl⟩
      · rcases (riffNames_mem level n).1 hn with h | h | h
        · exact .inl h
        · exact .inr (.inl h)
        · exact .inr (.inr (.inl h))
      · unfold action
        rw [if_pos (show (Node.set n kids).name ∈ riffNames level from hn)]
    · have ha : action level.useless (riffNames level) (.set n kids) =
          if level.useless && inJunk tag then .ok .remove
          else if tag = listTag ∧ n ≠ "movie" then .ok .enter else .ok .keep := by
        unfold action
        rw [if_neg (show ¬ (Node.set n kids).name ∈ riffNames level from hn), header_tag hh]
        rfl
      have hgone : Gone level (.set n kids) ↔ (level.useless && inJunk tag) = true := by
        rw [Bool.and_eq_true, inJunk_iff tag hh.2]
        constructor
        · rintro (h | h | h | ⟨hu, n', kids', size', rest', h, h'⟩)
          · exact absurd ((riffNames_mem level n).2 (.inl h)) hn
          · exact absurd ((riffNames_mem level n).2 (.inr (.inl h))) hn
          · exact absurd ((riffNames_mem level n).2 (.inr (.inr h))) hn
          · cases h
            exact ⟨hu, (header_unique hh h').1⟩
        · rintro ⟨hu, rfl⟩
          exact .inr (.inr (.inr ⟨hu, n, kids, size, rest, rfl, hh⟩))
      have hent : Entered (.set n kids) ↔ (tag = listTag ∧ n ≠ "movie") := by
        constructor
        · rintro ⟨n', kids', size', rest', h, h', hm⟩
          cases h
          exact ⟨(header_unique hh h').1, hm⟩
        · rintro ⟨rfl, hm⟩
          exact ⟨n, kids, size, rest, rfl, hh, hm⟩
      rw [ha, hgone, hent]
      by_cases h1 : (level.useless && inJunk tag) = true
      · left
        rw [if_pos h1]
        exact ⟨h1, rfl, n, kids, rfl⟩
      · right
        rw [if_neg h1]
        by_cases h2 : tag = listTag ∧ n ≠ "movie"
        · left; rw [if_pos h2]; exact ⟨h1, h2, rfl⟩
        · right; rw [if_neg h2]; exact ⟨h1, h2, rfl⟩

theorem stripSub_spec (level : Level) (m : Nat) : ∀ kids : List Node, sizeOf kids ≤ m → AllSound kids →
    ∃ kids' n, stripSub level.useless (riffNames level) kids = .ok (kids', n) ∧ AllSound kids' ∧
      Cut (Gone level) kids kids' ∧ totalBits kids = totalBits kids' + n ∧ n % 16 = 0 := by
  induction m with
  | zero =>
    intro kids hm
    cases kids <;> simp at hm
  | succ m ih =>
    intro kids hm hs
    cases kids with
    | nil => exact ⟨[], 0, by rw [stripSub], trivial, .nil, rfl, rfl⟩
    | cons k ks =>
      rw [AllSound] at hs
      obtain ⟨hk, hks⟩ := hs
      have hm' : sizeOf ks ≤ m ∧ sizeOf k ≤ m := by simp at hm; omega
      obtain ⟨ks', n, e1, e2, e3, e4, e5⟩ := ih ks hm'.1 hks
      rcases gone_action level k hk with ⟨g1, g2, nm, kk, rfl⟩ | ⟨g1, g2, g3⟩ | ⟨g1, g2, g3⟩
      · -- removed
        refine ⟨ks', totalBits kk + n, ?_, e2, .drop _ _ _ g1 e3, ?_, ?_⟩
        · rw [stripSub, stripNode, g2]
          simp only [e1]
          rfl
        · simp only [totalBits, Node.bits, e4]; omega
        · have := sound_even _ nm kk rfl hk
          simp only [Node.bits] at this
          omega
      · -- entered
        obtain ⟨nm, kk, size, rest, rfl, hh, hmov⟩ := g2
        have hk' := hk
        rw [Sound] at hk'
        obtain ⟨⟨tag, size0, rest0, hh0, hb⟩, hall⟩ := hk'
        obtain ⟨rfl, rfl, rfl⟩ := header_unique hh0 hh
        have hsub := hall ⟨size0, rest0, hh⟩ hmov
        have hsz : sizeOf rest0 ≤ m := by
          have : sizeOf kk ≤ m := by
            have := hm'.2
            simp at this
            omega
          rw [hh.1] at this
          simp at this
          omega
        have hkk := hh.1
        subst hkk
        have hrest : AllSound rest0 := by
          have := hsub.2
          rw [AllSound, AllSound] at this
          exact this.2.2
        obtain ⟨rest', r, f1, f2, f3, f4, f5, f6⟩ :
            ∃ rest' r, stripSub level.useless (riffNames level) rest0 = .ok (rest', r) ∧ AllSound rest' ∧
              Cut (Gone level) rest0 rest' ∧ totalBits rest0 = totalBits rest' + r ∧ r % 16 = 0 ∧
              ((rest0 = [] ∧ rest' = []) ∨ ∃ v q', rest' = .leaf "subtag" 32 v :: q') := by
          rcases hsub.1 _ _ _ rfl with hnil | ⟨v, q, hq⟩
          · subst hnil
            exact ⟨[], 0, by rw [stripSub], trivial, .nil, rfl, rfl, .inl ⟨rfl, rfl⟩⟩
          · subst hq
            have hsz' : sizeOf q ≤ m := by simp at hsz; omega
            obtain ⟨q', r, f1, f2, f3, f4, f5⟩ := ih q hsz' (by rw [AllSound] at hrest; exact hrest.2)
            refine ⟨.leaf "subtag" 32 v :: q', r, stripSub_leaf level _ _ _ (by decide) _ _ _ f1, ?_, ?_, ?_, f5,
              .inr ⟨v, q', rfl⟩⟩
            · rw [AllSound]
              exact ⟨by rw [Sound]; decide, f2⟩
            · have hl : Sound (.leaf "subtag" 32 v) := by rw [Sound]; decide
              rcases gone_action level _ hl with ⟨_, _, _, _, h⟩ | ⟨_, ⟨_, _, _, _, h, _⟩, _⟩ | ⟨h1, h2, _⟩
              · cases h
              · cases h
              · exact .keep _ _ _ h1 h2 f3
            · simp only [totalBits, f4]; omega
        have hstrip : stripSub level.useless (riffNames level)
            (.leaf "tag" 32 (.text tagList) :: .leaf "size" 32 (.int size0) :: rest0) =
            .ok (.leaf "tag" 32 (.text tagList) :: .leaf "size" 32 (.int size0) :: rest', r) :=
          stripSub_leaf level _ _ _ (by decide) _ _ _ (stripSub_leaf level _ _ _ (by decide) _ _ _ f1)
        have hle : r / 8 ≤ size0 := by
          rcases f6 with ⟨rfl, rfl⟩ | ⟨v, q', rfl⟩
          · simp only [totalBits] at f4; omega
          · simp only [totalBits, Node.bits] at f4
            unfold evenUp at hb; omega
        have hnew : totalBits rest' = 8 * evenUp (size0 - r / 8) := by unfold evenUp at hb ⊢; omega
        have hsound : Sound (.set nm (.leaf "tag" 32 (.text tagList) :: .leaf "size" 32 (.int (size0 - r / 8)) :: rest')) := by
          rw [Sound]
          refine ⟨⟨tagList, size0 - r / 8, rest', ⟨rfl, rfl⟩, hnew⟩, fun _ _ => ⟨?_, ?_⟩⟩
          · intro a b rest h
            cases h
            rcases f6 with ⟨_, h⟩ | ⟨v, q', h⟩
            · exact .inl h
            · exact .inr ⟨v, q', h⟩
          rw [AllSound, AllSound]
          exact ⟨by rw [Sound]; decide, by rw [Sound]; decide, f2⟩
        have hnode : stripNode level.useless (riffNames level)
            (.set nm (.leaf "tag" 32 (.text tagList) :: .leaf "size" 32 (.int size0) :: rest0)) =
            .ok (some (.set nm (.leaf "tag" 32 (.text tagList) :: .leaf "size" 32 (.int (size0 - r / 8)) :: rest')), r) := by
          rw [stripNode, g3]
          simp only [hstrip]
          by_cases hr : r = 0
          · subst hr
            rfl
          · rw [if_pos hr]
            have : subItem "size" (r / 8)
                (.leaf "tag" 32 (.text tagList) :: .leaf "size" 32 (.int size0) :: rest') =
                .ok (.leaf "tag" 32 (.text tagList) :: .leaf "size" 32 (.int (size0 - r / 8)) :: rest') := by
              rw [subItem, if_neg (show ¬ (Node.leaf "tag" 32 (.text tagList)).name = "size" by
                  show ¬ "tag" = "size"; decide), subItem,
                if_pos (show (Node.leaf "size" 32 (.int size0)).name = "size" from rfl), subValue, if_pos hle]
            rw [this]
        refine ⟨_ :: ks', r + n, ?_, ?_, .list nm size0 (size0 - r / 8) rest0 rest' ks ks' g1 hmov f3 e3, ?_, by omega⟩
        · rw [stripSub, hnode, e1]
          simp
        · rw [AllSound]
          exact ⟨hsound, e2⟩
        · simp only [totalBits, Node.bits, e4, f4]; omega
      · -- kept
        refine ⟨k :: ks', n, ?_, ?_, .keep _ _ _ g1 g2 e3, ?_, e5⟩
        · have : stripNode level.useless (riffNames level) k = .ok (some k, 0) := by
            cases k with
            | leaf => rw [stripNode, g3]
            | set => rw [stripNode, g3]
          rw [stripSub, this, e1]
          simp
        · rw [AllSound]; exact ⟨hk, e2⟩
        · simp only [totalBits, e4]; omega

theorem updateKid_split (name : String) (g : Node → Except PyErr Node) : ∀ (kids kids' : List Node),
    updateKid name g kids = .ok kids' → ∃ pre k k' post, kids = pre ++ k :: post ∧ kids' = pre ++ k' :: post ∧
      g k = .ok k' ∧ k.name = name ∧ ∀ x ∈ pre, x.name ≠ name := by
  intro kids
  induction kids with
  | nil => intro kids' h; cases h
  | cons k ks ih =>
    intro kids' h
    rw [updateKid] at h
    split at h
    · rename_i hn
      cases hg : g k with
      | error e => rw [hg] at h; cases h
      | ok k' =>
        rw [hg] at h
        cases h
        exact ⟨[], k, k', ks, rfl, rfl, hg, hn, by simp⟩
    · rename_i hn
      cases hu : updateKid name g ks with
      | error e => rw [hu] at h; cases h
      | ok ks' =>
        rw [hu] at h
        cases h
        obtain ⟨pre, x, x', post, h1, h2, h3, h4, h5⟩ := ih ks' hu
        refine ⟨k :: pre, x, x', post, by rw [h1]; rfl, by rw [h2]; rfl, h3, h4, ?_⟩
        intro y hy
        rcases List.mem_cons.1 hy with rfl | hy
        · exact hn
        · exact h5 y hy

theorem updateKid_skip (name : String) (g : Node → Except PyErr Node) (k : Node) (ks : List Node) (h : ¬ k.name = name) :
    updateKid name g (k :: ks) = (updateKid name g ks).map (k :: ·) := by
  rw [updateKid, if_neg h]
  cases updateKid name g ks <;> rfl

theorem updateKid_append (name : String) (g : Node → Except PyErr Node) (b : List Node)
    (hb : ∀ k ∈ b, ¬ k.name = name) : ∀ a : List Node,
    updateKid name g (a ++ b) = (updateKid name g a).map (· ++ b) := by
  intro a
  induction a with
  | nil =>
    rw [List.nil_append]
    have : ∀ c : List Node, (∀ k ∈ c, ¬ k.name = name) → updateKid name g c = .error .missingField := by
      intro c
      induction c with
      | nil => intro _; rfl
      | cons k ks ih =>
        intro h
        rw [updateKid_skip name g k ks (h k (by simp)), ih (fun x hx => h x (by simp [hx]))]
        rfl
    rw [this b hb]
    rfl
  | cons k ks ih =>
    by_cases hk : k.name = name
    · rw [List.cons_append, updateKid, updateKid, if_pos hk, if_pos hk]
      cases g k <;> rfl
    · rw [List.cons_append, updateKid_skip _ _ _ _ hk, updateKid_skip _ _ _ _ hk, ih]
      cases updateKid name g ks <;> rfl

theorem updateKid_at (name : String) (g : Node → Except PyErr Node) (k k' : Node) (post : List Node)
    (hk : k.name = name) (hg : g k = .ok k') : ∀ pre : List Node, (∀ x ∈ pre, x.name ≠ name) →
    updateKid name g (pre ++ k :: post) = .ok (pre ++ k' :: post) := by
  intro pre
  induction pre with
  | nil => intro _; rw [List.nil_append, updateKid, if_pos hk, hg]; rfl
  | cons p pre ih =>
    intro h
    rw [List.cons_append, updateKid_skip _ _ _ _ (h p (by simp)), ih (fun x hx => h x (by simp [hx]))]
    rfl

/-- A change of one field that keeps its name and size keeps a chunk sound. -/
theorem sound_update (n name : String) (pre post : List Node) (k k' : Node) (hname : k.name = name)
    (ht : name ≠ "tag") (hz : name ≠ "size") (hst : name ≠ "subtag") (hpre : ∀ x ∈ pre, x.name ≠ name) (hbits : k'.bits = k.bits)
    (hk : Sound k → Sound k') (h : Sound (.set n (pre ++ k :: post))) : Sound (.set n (pre ++ k' :: post)) := by
  rw [Sound] at h
  obtain ⟨⟨tag, size, rest, hh, hb⟩, hall⟩ := h
  match pre, hpre, hh with
  | [], _, hh =>
    have := hh.1
    injection this with e1 e2
    subst e1
    exact absurd hname.symm ht
  | [p], _, hh =>
    have := hh.1
    simp only [List.cons_append, List.nil_append] at this
    injection this with e1 e2
    injection e2 with e2 e3
    subst e2
    exact absurd hname.symm hz
  | p :: q :: pre, hpre, hh =>
    obtain ⟨h1, h2⟩ := hh
    simp only [List.cons_append] at h1
    injection h1 with e1 e2
    injection e2 with e2 e3
    subst e1 e2
    rw [Sound]
    refine ⟨⟨tag, size, pre ++ k' :: post, ⟨rfl, h2⟩, ?_⟩, ?_⟩
    · rw [← hb, ← e3, totalBits_append, totalBits_append, totalBits, totalBits, hbits]
    · rintro ⟨size', rest', hh'⟩ hm
      have htag : tag = tagList := by
        have := hh'.1
        injection this with e1 _
        injection e1 with _ _ e1
        injection e1
      subst htag
      have := hall ⟨size, rest, by rw [← e3]; exact ⟨rfl, h2⟩⟩ hm
      obtain ⟨hlab, hall'⟩ := this
      refine ⟨?_, ?_⟩
      · intro a b rest2 h
        cases h
        rcases hlab _ _ _ rfl with h | ⟨v, q, h⟩
        · cases pre <;> cases h
        · cases pre with
          | nil =>
            injection h with h _
            subst h
            exact absurd hname.symm hst
          | cons x pre =>
            injection h with h _
            exact .inr ⟨v, pre ++ k' :: post, by rw [h]; rfl⟩
      rw [allSound_append] at hall' ⊢
      refine ⟨hall'.1, ?_⟩
      have h3 := hall'.2
      rw [AllSound] at h3 ⊢
      exact ⟨hk h3.1, h3.2⟩

theorem updatePath_sound : ∀ (path : List String) (node node' : Node),
    (∀ p ∈ path, p ≠ "tag" ∧ p ≠ "size" ∧ p ≠ "subtag") →
    updatePath clearBit path node = .ok node' →
    (Sound node → Sound node') ∧ node'.bits = node.bits ∧ node'.name = node.name := by
  intro path
  induction path with
  | nil =>
    intro node node' _ h
    rw [updatePath] at h
    cases h
    cases node with
    | leaf n b v => exact ⟨fun h => by rw [clearBit, Sound]; rw [Sound] at h; exact h, rfl, rfl⟩
    | set n kids => exact ⟨id, rfl, rfl⟩
  | cons p path ih =>
    intro node node' hp h
    cases node with
    | leaf => rw [updatePath] at h; cases h
    | set n kids =>
      rw [updatePath] at h
      cases hu : updateKid p (updatePath clearBit path) kids with
      | error e => rw [hu] at h; cases h
      | ok kids' =>
        rw [hu] at h
        cases h
        obtain ⟨pre, k, k', post, rfl, rfl, h3, h4, h5⟩ := updateKid_split p _ kids kids' hu
        obtain ⟨i1, i2, i3⟩ := ih k k' (fun q hq => hp q (by simp [hq])) h3
        obtain ⟨p1, p2, p3⟩ := hp p (by simp)
        refine ⟨sound_update n p pre post k k' h4 p1 p2 p3 h5 i2 i1, ?_, rfl⟩
        simp only [Node.bits, totalBits_append, totalBits, i2]

theorem clearIndex_sound (file : Node) (h : SoundFile file) :
    SoundFile (clearIndex file) ∧ (clearIndex file).bits = file.bits := by
  unfold clearIndex
  cases hu : updatePath clearBit ["headers", "avi_hdr", "has_index"] file with
  | error e => exact ⟨h, rfl⟩
  | ok r =>
    refine ⟨?_, (updatePath_sound _ _ _ (by decide) hu).2.1⟩
    obtain ⟨name, sig, size, type, chunks, after, rfl, hb, ha, hafter⟩ := h
    rw [updatePath] at hu
    cases hk : updateKid "headers" (updatePath clearBit ["avi_hdr", "has_index"]) (.leaf "signature" 32 sig ::
        .leaf "filesize" 32 (.int size) :: .leaf "type" 32 type :: (chunks ++ after)) with
    | error e => rw [hk] at hu; cases hu
    | ok kids' =>
      rw [hk] at hu
      cases hu
      rw [updateKid_skip _ _ _ _ (by show ¬ "signature" = "headers"; decide),
        updateKid_skip _ _ _ _ (by show ¬ "filesize" = "headers"; decide),
        updateKid_skip _ _ _ _ (by show ¬ "type" = "headers"; decide),
        updateKid_append _ _ after (fun k hk => by
          obtain ⟨b, v, rfl⟩ := hafter k hk; show ¬ "padding[0]" = "headers"; decide)] at hk
      cases hc : updateKid "headers" (updatePath clearBit ["avi_hdr", "has_index"]) chunks with
      | error e => rw [hc] at hk; cases hk
      | ok chunks' =>
        rw [hc] at hk
        cases hk
        obtain ⟨pre, k, k', post, rfl, rfl, h3, h4, h5⟩ := updateKid_split _ _ _ _ hc
        obtain ⟨i1, i2, i3⟩ := updatePath_sound _ _ _ (by decide) h3
        refine ⟨name, sig, size, type, pre ++ k' :: post, after, rfl, ?_, ?_, hafter⟩
        · rw [← hb, totalBits_append, totalBits_append, totalBits, totalBits, i2]
        · rw [allSound_append] at ha ⊢
          refine ⟨ha.1, ?_⟩
          have := ha.2
          rw [AllSound] at this ⊢
          exact ⟨i1 this.1, this.2⟩

/-! ### C71 -/

/-- The file of which the chunks are cut: as given, or with the flag of the index cleared. -/
def riffInput (level : Level) (file : Node) : Node := if level.index then clearIndex file else file

/-- C71.  Stripping a RIFF file succeeds and leaves a RIFF file: every size field, of the file
and of the lists, tells the size of what is left; exactly the chosen chunks are gone and
nothing else is changed; the number that is returned is the number of bits removed. -/
theorem C71_riff (level : Level) (file : Node) (h : SoundFile file) :
    ∃ file' n, riffStrip level file = .ok (file', n) ∧ SoundFile file' ∧ file.bits = file'.bits + n ∧
      ∃ name sig type size size' chunks chunks' after,
        riffInput level file = .set name (.leaf "signature" 32 sig :: .leaf "filesize" 32 (.int size) ::
          .leaf "type" 32 type :: (chunks ++ after)) ∧
        file' = .set name (.leaf "signature" 32 sig :: .leaf "filesize" 32 (.int size') ::
          .leaf "type" 32 type :: (chunks' ++ after)) ∧
        (∀ k ∈ after, ∃ b v, k = .leaf "padding[0]" b v) ∧ 8 * size' = totalBits chunks' + 32 ∧
        Cut (Gone level) chunks chunks' := by
  have h0 : SoundFile (riffInput level file) ∧ (riffInput level file).bits = file.bits := by
    unfold riffInput
    split
    · exact clearIndex_sound file h
    · exact ⟨h, rfl⟩
  obtain ⟨hs, hbits⟩ := h0
  obtain ⟨name, sig, size, type, chunks, after, he, hb, ha, hafter⟩ := hs
  obtain ⟨chunks', n, e1, e2, e3, e4, e5⟩ := stripSub_spec level _ chunks (Nat.le_refl _) ha
  have hstrip : stripSub level.useless (riffNames level) (.leaf "signature" 32 sig :: .leaf "filesize" 32 (.int size) ::
      .leaf "type" 32 type :: (chunks ++ after)) = .ok (.leaf "signature" 32 sig :: .leaf "filesize" 32 (.int size) ::
      .leaf "type" 32 type :: (chunks' ++ after), n) :=
    stripSub_leaf level _ _ _ (by decide) _ _ _ (stripSub_leaf level _ _ _ (by decide) _ _ _
      (stripSub_leaf level _ _ _ (by decide) _ _ _
        (stripSub_append level after after 0 (stripSub_leaves level after hafter) chunks chunks' n e1)))
  have hrun : riffStrip level file = .ok (.set name (.leaf "signature" 32 sig ::
      .leaf "filesize" 32 (.int (size - n / 8)) :: .leaf "type" 32 type :: (chunks' ++ after)), n) := by
    unfold riffStrip
    have : (if level.index = true then clearIndex file else file) = riffInput level file := rfl
    rw [this, he]
    simp only [hstrip]
    by_cases hn : n = 0
    · subst hn; rfl
    · rw [if_pos hn]
      have : subItem "filesize" (n / 8) (.leaf "signature" 32 sig :: .leaf "filesize" 32 (.int size) ::
          .leaf "type" 32 type :: (chunks' ++ after)) = .ok (.leaf "signature" 32 sig ::
          .leaf "filesize" 32 (.int (size - n / 8)) :: .leaf "type" 32 type :: (chunks' ++ after)) := by
        rw [subItem, if_neg (show ¬ (Node.leaf "signature" 32 sig).name = "filesize" by
            show ¬ "signature" = "filesize"; decide), subItem,
          if_pos (show (Node.leaf "filesize" 32 (.int size)).name = "filesize" from rfl), subValue, if_pos (by omega)]
      rw [this]
  refine ⟨_, n, hrun, ⟨name, sig, _, type, chunks', after, rfl, by omega, e2, hafter⟩, ?_, name, sig, type, size, _,
    chunks, chunks', after, he, rfl, hafter, by omega, e3⟩
  rw [← hbits, he]
  simp only [Node.bits, totalBits, totalBits_append, e4]
  omega

/-- A small AVI file: a list of headers with junk in it, information, a chunk and the index. -/
def demoChunks : List Node := [
    .set "headers" [
      .leaf "tag" 32 (.text tagList), .leaf "size" 32 (.int 26), .leaf "subtag" 32 (.text [0x68, 0x64, 0x72, 0x6c]),
      .set "avi_hdr" [.leaf "tag" 32 (.text [0x61, 0x76, 0x69, 0x68]), .leaf "size" 32 (.int 3),
        .leaf "has_index" 1 (.int 1), .leaf "rest" 31 (.int 0)],
      .set "junk[0]" [.leaf "tag" 32 (.text tagJunk), .leaf "size" 32 (.int 1), .leaf "raw" 16 (.int 0)]],
    .set "info" [.leaf "tag" 32 (.text tagList), .leaf "size" 32 (.int 4), .leaf "subtag" 32 (.text [0x49, 0x4e, 0x46, 0x4f])],
    .set "field[0]" [.leaf "tag" 32 (.text [0x61, 0x62, 0x63, 0x64]), .leaf "size" 32 (.int 2), .leaf "raw" 16 (.int 7)],
    .set "index" [.leaf "tag" 32 (.text [0x69, 0x64, 0x78, 0x31]), .leaf "size" 32 (.int 8), .leaf "raw" 64 (.int 7)]]

def demoAvi : Node :=
  .set "/" (
    .leaf "signature" 32 (.text [0x52, 0x49, 0x46, 0x46]) ::
    .leaf "filesize" 32 (.int 76) ::
    .leaf "type" 32 (.text [0x41, 0x56, 0x49, 0x20]) :: (demoChunks ++ [.leaf "padding[0]" 8 (.int 0)]))

/-- It meets the hypothesis, and everything is removed from it at full level. -/
example : SoundFile demoAvi := by
  refine ⟨_, _, _, _, demoChunks, [.leaf "padding[0]" 8 (.int 0)], rfl, by decide +kernel, ?_, by simp⟩
  simp only [demoChunks, AllSound, Sound]
  have lab : ∀ (a b c : Node) (v : Val) (l : List Node), c = .leaf "subtag" 32 v → Labelled (a :: b :: c :: l) := by
    intro a b c v l h x y rest e
    cases e
    exact .inr ⟨v, l, by rw [h]⟩
  have no : ∀ (t : Bytes) (b : Node) (l : List Node) (P : Prop), t ≠ tagList →
      (∃ size rest, Header (.leaf "tag" 32 (.text t) :: b :: l) tagList size rest) → P := by
    rintro t b l P ht ⟨size, rest, h, _⟩
    injection h with e _
    injection e with _ _ e
    injection e with e
    exact absurd e ht
  refine ⟨⟨⟨_, _, _, ⟨rfl, rfl⟩, by decide +kernel⟩, fun _ _ => ⟨lab _ _ _ _ _ rfl, by decide, by decide, by decide,
      ⟨⟨_, _, _, ⟨rfl, rfl⟩, by decide +kernel⟩, fun h => no _ _ _ _ (by decide) h⟩,
      ⟨⟨_, _, _, ⟨rfl, rfl⟩, by decide +kernel⟩, fun h => no _ _ _ _ (by decide) h⟩, trivial⟩⟩,
    ⟨⟨_, _, _, ⟨rfl, rfl⟩, by decide +kernel⟩, fun _ _ => ⟨lab _ _ _ _ _ rfl, by decide, by decide, by decide, trivial⟩⟩,
    ⟨⟨_, _, _, ⟨rfl, rfl⟩, by decide +kernel⟩, fun h => no _ _ _ _ (by decide) h⟩,
    ⟨⟨_, _, _, ⟨rfl, rfl⟩, by decide +kernel⟩, fun h => no _ _ _ _ (by decide) h⟩, trivial⟩

example : (riffStrip ⟨true, true, true⟩ demoAvi).map (fun r => (r.1.bits, r.2)) = .ok (680 - 8 * 38, 8 * 38) := by
  decide +kernel

/-- C71.  When the index is stripped, the flag in the headers that announces it is cleared,
and nothing else is changed before the chunks are cut. -/
theorem C71_index (level : Level) (hl : level.index = true) (root : String) (p1 q1 p2 q2 p3 q3 : List Node)
    (b : Nat) (v : Val) (h1 : ∀ x ∈ p1, x.name ≠ "headers") (h2 : ∀ x ∈ p2, x.name ≠ "avi_hdr")
    (h3 : ∀ x ∈ p3, x.name ≠ "has_index") :
    riffInput level (.set root (p1 ++ .set "headers" (p2 ++ .set "avi_hdr" (p3 ++ .leaf "has_index" b v :: q3) :: q2) :: q1)) =
      .set root (p1 ++ .set "headers" (p2 ++ .set "avi_hdr" (p3 ++ .leaf "has_index" b (.int 0) :: q3) :: q2) :: q1) := by
  have e3 : updatePath clearBit ["has_index"] (.set "avi_hdr" (p3 ++ .leaf "has_index" b v :: q3)) =
      .ok (.set "avi_hdr" (p3 ++ .leaf "has_index" b (.int 0) :: q3)) := by
    rw [updatePath, updateKid_at "has_index" _ (.leaf "has_index" b v) (.leaf "has_index" b (.int 0)) q3 rfl rfl p3 h3]
  have e2 : updatePath clearBit ["avi_hdr", "has_index"]
      (.set "headers" (p2 ++ .set "avi_hdr" (p3 ++ .leaf "has_index" b v :: q3) :: q2)) =
      .ok (.set "headers" (p2 ++ .set "avi_hdr" (p3 ++ .leaf "has_index" b (.int 0) :: q3) :: q2)) := by
    rw [updatePath, updateKid_at "avi_hdr" _ _ _ q2 rfl e3 p2 h2]
  unfold riffInput clearIndex
  rw [if_pos hl, updatePath, updateKid_at "headers" _ _ _ q1 rfl e2 p1 h1]

/-- C71 (disagreement).  The flag is not cleared in the file that is kept if the file has no
index chunk: the field is changed, but the file is written only if bits were removed. -/
theorem C71_flagLost : ∃ (level : Level) (file file' : Node) (n : Nat), riffStrip level file = .ok (file', n) ∧
    file' ≠ file ∧ written n = false := by
  refine ⟨⟨false, false, true⟩, .set "/" [.leaf "signature" 32 (.text []), .leaf "filesize" 32 (.int 16),
    .leaf "type" 32 (.text []), .set "headers" [.leaf "tag" 32 (.text tagList), .leaf "size" 32 (.int 16),
      .leaf "subtag" 32 (.text []), .set "avi_hdr" [.leaf "tag" 32 (.text [0x61, 0x76, 0x69, 0x68]),
        .leaf "size" 32 (.int 4), .leaf "has_index" 32 (.int 1)]]], _, 0, rfl, ?_, rfl⟩
  intro h
  injection h with _ h
  injection h with _ h
  injection h with _ h
  injection h with _ h
  injection h with h _
  injection h with _ h
  injection h with _ h
  injection h with _ h
  injection h with _ h
  injection h with h _
  injection h with _ h
  injection h with _ h
  injection h with _ h
  injection h with h _
  injection h with _ _ h
  injection h with h
  cases h

/-! ### C72 -/

/-- The fields without those that are named by `P`, and how many bits those have. -/
inductive Without (P : String → Prop) : List Node → List Node → Nat → Prop
  | nil : Without P [] [] 0
  | drop (k : Node) (ks ks' : List Node) (n : Nat) : P k.name → Without P ks ks' n → Without P (k :: ks) ks' (k.bits + n)
  | keep (k : Node) (ks ks' : List Node) (n : Nat) : ¬ P k.name → Without P ks ks' n → Without P (k :: ks) (k :: ks') n

theorem without_check (check : String → Bool) (P : String → Prop) (h : ∀ n, check n = true ↔ P n) :
    ∀ kids, Without P kids (checkStrip check kids).1 (checkStrip check kids).2 := by
  intro kids
  induction kids with
  | nil => exact .nil
  | cons k ks ih =>
    rw [checkStrip]
    by_cases hk : check k.name = true
    · simp only [hk, if_true]
      exact .drop k ks _ _ ((h _).1 hk) ih
    · rw [Bool.not_eq_true] at hk
      simp only [hk, Bool.false_eq_true, if_false]
      exact .keep k ks _ _ (fun hp => by rw [(h _).2 hp] at hk; cases hk) ih

theorem startsWith_iff (pre name : String) :
    startsWith pre name = true ↔ ∃ rest, name.toList = pre.toList ++ rest := by
  unfold startsWith
  rw [List.isPrefixOf_iff_prefix]
  constructor
  · rintro ⟨r, h⟩; exact ⟨r, h.symm⟩
  · rintro ⟨r, h⟩; exact ⟨r, h.symm⟩

/-- C72.  Of a PNG picture the texts and the time are removed, if metadata is to be removed,
and nothing else. -/
theorem C72_png (level : Level) (kids : List Node) :
    Without (fun n => level.metadata = true ∧ ((∃ rest, n.toList = "text[".toList ++ rest) ∨ n = "time"))
      kids (checkStrip (pngCheck level) kids).1 (checkStrip (pngCheck level) kids).2 := by
  apply without_check
  intro n
  unfold pngCheck
  rw [Bool.and_eq_true, Bool.or_eq_true, startsWith_iff, beq_iff_eq]

/-- C72.  Of a JPEG picture the comments and the blocks of Photoshop, Exif and Adobe. -/
theorem C72_jpeg (level : Level) (kids : List Node) :
    Without (fun n => level.metadata = true ∧ ((∃ rest, n.toList = "comment".toList ++ rest) ∨
        n = "photoshop" ∨ n = "exif" ∨ n = "adobe"))
      kids (checkStrip (jpegCheck level) kids).1 (checkStrip (jpegCheck level) kids).2 := by
  apply without_check
  intro n
  unfold jpegCheck
  rw [Bool.and_eq_true, Bool.or_eq_true, startsWith_iff]
  simp

/-- C72.  Of an MPEG audio file the ID3 blocks. -/
theorem C72_mpeg (level : Level) (kids : List Node) :
    Without (fun n => level.metadata = true ∧ (n = "id3v1" ∨ n = "id3v2"))
      kids (checkStrip (mpegCheck level) kids).1 (checkStrip (mpegCheck level) kids).2 := by
  apply without_check
  intro n
  unfold mpegCheck
  simp

example : ((checkStrip (jpegCheck ⟨false, true, false⟩)
    [.leaf "start_image" 16 (.int 0), .set "comment[0]" [.leaf "text" 80 (.int 0)], .leaf "exif" 8 (.int 1),
      .leaf "data" 24 (.int 2)]).1.map Node.name) = ["start_image", "data"] := by decide +kernel

/-- What is removed and what is left make up the whole, in size. -/
theorem without_bits {P : String → Prop} {kids kids' : List Node} {n : Nat} (h : Without P kids kids' n) :
    totalBits kids = totalBits kids' + n := by
  induction h with
  | nil => rfl
  | drop k ks ks' n _ _ ih => rw [totalBits, ih]; omega
  | keep k ks ks' n _ _ ih => rw [totalBits, totalBits, ih]; omega

/-- C72.  If the field with the offset of the audio data tells where they begin, it does so
after the information before them has been removed from an AU file. -/
theorem C72_au (level : Level) (hl : level.metadata = true) (sig codec rate channels size info : Val) (b : Nat)
    (rest : List Node) (hrest : ∀ k ∈ rest, k.name ≠ "info") (ofs : Nat) (hofs : 8 * ofs = 192 + b) :
    ∃ ofs', auStrip level (.leaf "signature" 32 sig :: .leaf "data_ofs" 32 (.int ofs) :: .leaf "data_size" 32 size ::
        .leaf "codec" 32 codec :: .leaf "sample_rate" 32 rate :: .leaf "channels" 32 channels ::
        .leaf "info" b info :: rest) =
      .ok (.leaf "signature" 32 sig :: .leaf "data_ofs" 32 (.int ofs') :: .leaf "data_size" 32 size ::
        .leaf "codec" 32 codec :: .leaf "sample_rate" 32 rate :: .leaf "channels" 32 channels :: rest, b) ∧
      8 * ofs' = 192 := by
  refine ⟨ofs - b / 8, ?_, by omega⟩
  have hle : b / 8 ≤ ofs := by omega
  have hf : rest.filter (fun k => decide (k.name ≠ "info")) = rest := by
    rw [List.filter_eq_self]
    intro k hk
    exact decide_eq_true (hrest k hk)
  unfold auStrip
  rw [if_pos hl]
  have hg : getKid "info" (.leaf "signature" 32 sig :: .leaf "data_ofs" 32 (.int ofs) :: .leaf "data_size" 32 size ::
        .leaf "codec" 32 codec :: .leaf "sample_rate" 32 rate :: .leaf "channels" 32 channels ::
        .leaf "info" b info :: rest) = .ok (.leaf "info" b info) := rfl
  rw [hg]
  simp only [Node.bits]
  have hs : ∀ l, subItem "data_ofs" (b / 8) (.leaf "signature" 32 sig :: .leaf "data_ofs" 32 (.int ofs) :: l) =
      .ok (.leaf "signature" 32 sig :: .leaf "data_ofs" 32 (.int (ofs - b / 8)) :: l) := by
    intro l
    rw [subItem, if_neg (show ¬ (Node.leaf "signature" 32 sig).name = "data_ofs" by
        show ¬ "signature" = "data_ofs"; decide), subItem,
      if_pos (show (Node.leaf "data_ofs" 32 (.int ofs)).name = "data_ofs" from rfl), subValue, if_pos hle]
  rw [hs]
  have h1 : ∀ (nm : String) (bb : Nat) (v : Val) (l : List Node), nm ≠ "info" →
      (Node.leaf nm bb v :: l).filter (fun k => decide (k.name ≠ "info")) =
        Node.leaf nm bb v :: l.filter (fun k => decide (k.name ≠ "info")) := by
    intro nm bb v l h
    exact List.filter_cons_of_pos (decide_eq_true h)
  simp only
  rw [h1 "signature" _ _ _ (by decide), h1 "data_ofs" _ _ _ (by decide), h1 "data_size" _ _ _ (by decide),
    h1 "codec" _ _ _ (by decide), h1 "sample_rate" _ _ _ (by decide), h1 "channels" _ _ _ (by decide),
    List.filter_cons_of_neg (by simp [Node.name]), hf]

/-- C72.  An AU file without information, or one of which metadata is to be kept, is left as it is. -/
theorem C72_auKept (level : Level) (kids : List Node)
    (h : level.metadata = false ∨ ∀ k ∈ kids, k.name ≠ "info") : auStrip level kids = .ok (kids, 0) := by
  unfold auStrip
  rcases h with h | h
  · rw [h]; rfl
  · split
    · have : getKid "info" kids = .error .missingField := by
        induction kids with
        | nil => rfl
        | cons k ks ih =>
          rw [getKid, if_neg (h k (by simp))]
          exact ih (fun x hx => h x (by simp [hx]))
      rw [this]
    · rfl

/-- C72 (disagreement).  A tar archive with any file in it cannot be stripped. -/
theorem C72_tar (files : List Node) (h : files ≠ []) : tarStrip files = .error .assertion := by
  cases files with
  | nil => exact absurd rfl h
  | cons => rfl

end Hachoir.Props
