import Verif.Formats.DsStore
import Verif.Props.Reader
import Verif.Props.Packed

/-!
# Files of the Mac OS X Finder
-/

namespace Hachoir.Props
open Hachoir Hachoir.Stream Hachoir.Field Hachoir.Formats Hachoir.Formats.DsStore Spec

/-! ## Records -/

/-- A text: the number of its units of two bytes, then the text. -/
def dsText (b : Bytes) : Bytes := beBytes 4 (b.length / 2) ++ b

def DsTextGood (b : Bytes) : Prop := b.length % 2 = 0 ∧ b ≠ [] ∧ b.length ≤ 65535

theorem reads_ds_text (b : Bytes) (h : DsTextGood b) : Reads longText b (dsText b) := by
  obtain ⟨h1, h2, h3⟩ := h
  have := List.length_pos_of_ne_nil h2
  refine Reads.bind (reads_int_be 4 _ (by decide) (by omega)) ?_
  rw [show 2 * (b.length / 2) = b.length by omega]
  exact reads_fixed .big .utf16be (by decide) b.length b rfl (by omega)

/-- The type and the value of a record. -/
def dsValue : Value → Bytes × Bytes
  | .long n => ("long".toUTF8.toList, beBytes 4 n)
  | .short n => ("shor".toUTF8.toList, [0, 0] ++ beBytes 2 n)
  | .bool n => ("bool".toUTF8.toList, beBytes 1 n)
  | .blob b => ("blob".toUTF8.toList, beBytes 4 b.length ++ b)
  | .type b => ("type".toUTF8.toList, b)
  | .text b => ("ustr".toUTF8.toList, dsText b)

def DsValueGood : Value → Prop
  | .long n => n < 2 ^ 32
  | .short n => n < 65536
  | .bool n => n < 256
  | .blob b => b ≠ [] ∧ b.length < 2 ^ 32
  | .type b => b.length = 4
  | .text b => DsTextGood b

/-- A record: file name, property, type, value. -/
def dsRecord (r : Record) : Bytes := dsText r.filename ++ (r.property ++ ((dsValue r.value).1 ++ (dsValue r.value).2))

structure DsRecordGood (r : Record) : Prop where
  filename : DsTextGood r.filename
  property : r.property.length = 4
  value : DsValueGood r.value

theorem ds_types : "long".toUTF8.toList = [0x6C, 0x6F, 0x6E, 0x67] ∧ "shor".toUTF8.toList = [0x73, 0x68, 0x6F, 0x72] ∧ "bool".toUTF8.toList = [0x62, 0x6F, 0x6F, 0x6C] ∧
    "blob".toUTF8.toList = [0x62, 0x6C, 0x6F, 0x62] ∧ "type".toUTF8.toList = [0x74, 0x79, 0x70, 0x65] ∧ "ustr".toUTF8.toList = [0x75, 0x73, 0x74, 0x72] := by
  decide +kernel

theorem ds_type_length (v : Value) : (dsValue v).1.length = 4 := by
  obtain ⟨t1, t2, t3, t4, t5, t6⟩ := ds_types
  cases v <;> simp only [dsValue, t1, t2, t3, t4, t5, t6] <;> rfl

theorem reads_ds_value (v : Value) (h : DsValueGood v) : Reads (value (· == ·) (dsValue v).1) v (dsValue v).2 := by
  obtain ⟨t1, t2, t3, t4, t5, t6⟩ := ds_types
  cases v with
  | long n =>
    simp only [dsValue, t1]
    rw [value, if_pos (by decide)]
    exact Reads.map (reads_int_be 4 n (by decide) h)
  | short n =>
    simp only [dsValue, t2]
    rw [value, if_neg (by decide), if_pos (by decide)]
    exact Reads.bind (reads_raw_n 2 [0, 0] rfl (by decide)) (Reads.map (reads_int_be 2 n (by decide) h))
  | bool n =>
    simp only [dsValue, t3]
    rw [value, if_neg (by decide), if_neg (by decide), if_pos (by decide)]
    exact Reads.map (reads_int_be 1 n (by decide) h)
  | blob b =>
    simp only [dsValue, t4]
    rw [value, if_neg (by decide), if_neg (by decide), if_neg (by decide), if_pos (by decide)]
    exact Reads.bind (reads_int_be 4 _ (by decide) h.2) (Reads.map (reads_raw b h.1))
  | type b =>
    simp only [dsValue, t5]
    rw [value, if_neg (by decide), if_neg (by decide), if_neg (by decide), if_neg (by decide), if_pos (by decide)]
    exact Reads.map (reads_raw_n 4 b h (by decide))
  | text b =>
    simp only [dsValue, t6]
    rw [value, if_neg (by decide), if_neg (by decide), if_neg (by decide), if_neg (by decide), if_neg (by decide), if_pos (by decide)]
    exact Reads.map (reads_ds_text b h)

/-- **C148** (partial): if types were compared as bytes, all records would be read as they were written. -/
theorem C148_record_partial (r : Record) (g : DsRecordGood r) : Reads (record (· == ·)) r (dsRecord r) := by
  refine Reads.bind (reads_ds_text _ g.filename) ?_
  refine Reads.bind (reads_raw_n 4 _ g.property (by decide)) ?_
  refine Reads.bind (reads_raw_n 4 _ (ds_type_length _) (by decide)) ?_
  exact Reads.map (f := fun v => Record.mk r.filename r.property v) (reads_ds_value r.value g.value)

/-- Violation: no record of any type is read, since the bytes of its type are compared with texts. -/
theorem C148_no_record (filename property type rest : Bytes) (h1 : DsTextGood filename) (h2 : property.length = 4) (h3 : type.length = 4) :
    Fails (record bytesIsText) .parser (dsText filename ++ (property ++ (type ++ rest))) := by
  refine Reads.fails (reads_ds_text _ h1) ?_
  refine Reads.fails (reads_raw_n 4 _ h2 (by decide)) ?_
  refine Reads.fails (reads_raw_n 4 _ h3 (by decide)) ?_
  intro data s hs k stop _ _
  rfl

theorem ds_record_fails (r : Record) (g : DsRecordGood r) : Fails (record bytesIsText) .parser (dsRecord r) :=
  C148_no_record _ _ _ _ g.filename g.property (ds_type_length _)

theorem Reads.attempt {α : Type} {r : Rd α} {v : α} {bs : Bytes} (h : Reads r v bs) : Reads (DsStore.attempt r) (some v) bs := by
  intro data s hs k stop hp hst
  rw [DsStore.attempt, h data s hs k stop hp hst]

/-! ## Nodes -/

/-- A tree of records: leaves, and inner nodes with a child before each record and one behind the last; each has its block. -/
inductive BTree where
  | leaf (block : Nat) (records : List Record)
  | inner (block : Nat) (pairs : List (BTree × Record)) (last : BTree)

namespace BTree

def block : BTree → Nat
  | leaf b _ => b
  | inner b _ _ => b

/-- The children of a node. -/
def children : BTree → List BTree
  | leaf _ _ => []
  | inner _ ps l => ps.map (·.1) ++ [l]

/-- A node as it is written. -/
def bytes : BTree → Bytes
  | leaf _ rs => beBytes 4 0 ++ (beBytes 4 rs.length ++ rs.flatMap dsRecord)
  | inner _ ps l => beBytes 4 l.block ++ (beBytes 4 ps.length ++ ps.flatMap fun p => beBytes 4 p.1.block ++ dsRecord p.2)

/-- What is to be read of a node. -/
def node : BTree → Node
  | leaf _ rs => ⟨0, rs.length, [], rs⟩
  | inner _ ps l => ⟨l.block, ps.length, ps.map (·.1.block), ps.map (·.2)⟩

mutual
/-- All nodes, each before its children. -/
def order : BTree → List (Nat × Node)
  | leaf b rs => [(b, (leaf b rs).node)]
  | inner b ps l => (b, (inner b ps l).node) :: (orders ps ++ order l)
def orders : List (BTree × Record) → List (Nat × Node)
  | [] => []
  | p :: ps => order p.1 ++ orders ps
end

theorem orders_flat : ∀ ps : List (BTree × Record), orders ps = (ps.map (·.1)).flatMap order
  | [] => by rw [orders]; rfl
  | p :: ps => by rw [orders, orders_flat ps]; rfl

theorem order_cons (t : BTree) : t.order = (t.block, t.node) :: t.children.flatMap order := by
  cases t with
  | leaf b rs => rw [order]; rfl
  | inner b ps l => rw [order, orders_flat]; simp [block, children]

/-- What the code sees of a node: no record, and the first child only besides the last. -/
def seen : BTree → Node
  | leaf _ rs => ⟨0, rs.length, [], []⟩
  | inner _ ps l => ⟨l.block, ps.length, (ps.take 1).map (·.1.block), []⟩

def seenChildren : BTree → List BTree
  | leaf _ _ => []
  | inner _ ps l => (ps.take 1).map (·.1) ++ [l]

/-- The nodes the code visits. -/
def visited : BTree → List (Nat × Node)
  | leaf b rs => [(b, (leaf b rs).seen)]
  | inner b [] l => (b, (inner b [] l).seen) :: visited l
  | inner b ((c, r) :: ps) l => (b, (inner b ((c, r) :: ps) l).seen) :: (visited c ++ visited l)

theorem visited_cons (t : BTree) : t.visited = (t.block, t.seen) :: t.seenChildren.flatMap visited := by
  cases t with
  | leaf b rs => rw [visited]; rfl
  | inner b ps l =>
    cases ps with
    | nil => rw [visited]; simp [block, seenChildren]
    | cons p ps => obtain ⟨c, r⟩ := p; rw [visited]; simp [block, seenChildren]

end BTree

/-- The nodes of a tree are at the places of their blocks, in whatever order. -/
inductive TreeAt (data : Bytes) (a : Allocator) : BTree → Prop
  | leaf (b : Nat) (rs : List Record) (place size : Nat) : a.blocks[b]? = some (place, size) → (BTree.leaf b rs).bytes <+: data.drop (place + 4) →
      (BTree.leaf b rs).bytes.length ≤ size → rs.length < 2 ^ 32 → (∀ r ∈ rs, DsRecordGood r) → TreeAt data a (.leaf b rs)
  | inner (b : Nat) (ps : List (BTree × Record)) (l : BTree) (place size : Nat) : a.blocks[b]? = some (place, size) →
      (BTree.inner b ps l).bytes <+: data.drop (place + 4) → (BTree.inner b ps l).bytes.length ≤ size → ps.length < 2 ^ 32 →
      l.block ≠ 0 → l.block < 2 ^ 32 → (∀ p ∈ ps, p.1.block < 2 ^ 32 ∧ DsRecordGood p.2) → (∀ p ∈ ps, TreeAt data a p.1) → TreeAt data a l →
      TreeAt data a (.inner b ps l)

theorem reads_ds_records : ∀ rs : List Record, (∀ r ∈ rs, DsRecordGood r) → Reads (records (· == ·) rs.length) ([], rs) (rs.flatMap dsRecord)
  | [], _ => reads_pure _
  | r :: rs, h => by
    rw [List.length_cons, records, List.flatMap_cons]
    refine Reads.bind (C148_record_partial r (h r (by simp))).attempt ?_
    exact Reads.map (f := fun x : List Nat × List Record => ([] ++ x.1, r :: x.2)) (reads_ds_records rs fun x hx => h x (by simp [hx]))

theorem reads_ds_pairs : ∀ ps : List (BTree × Record), (∀ p ∈ ps, p.1.block < 2 ^ 32 ∧ DsRecordGood p.2) →
    Reads (DsStore.pairs (· == ·) ps.length) (ps.map (·.1.block), ps.map (·.2)) (ps.flatMap fun p => beBytes 4 p.1.block ++ dsRecord p.2)
  | [], _ => reads_pure _
  | p :: ps, h => by
    rw [List.length_cons, DsStore.pairs, List.flatMap_cons, List.append_assoc]
    obtain ⟨h1, h2⟩ := h p (by simp)
    refine Reads.bind (reads_int_be 4 _ (by decide) h1) ?_
    refine Reads.bind (C148_record_partial _ h2).attempt ?_
    exact Reads.map (f := fun x : List Nat × List Record => ([p.1.block] ++ x.1, p.2 :: x.2)) (reads_ds_pairs ps fun x hx => h x (by simp [hx]))

/-- A reader of a field set that reads on only as long as there are no errors. -/
def ReadsSome {α : Type} (r : Rd α) (v : α) (bs : Bytes) : Prop :=
  ∀ data s, stringInputStream data = .ok s → ∀ k stop, bs <+: data.drop k → 8 * (k + bs.length) ≤ stop → ∃ e, r s stop (8 * k) = .ok (v, e)

theorem ReadsSome.within_at {α : Type} {r : Rd α} {v : α} {bs : Bytes} (h : ReadsSome r v bs) {data : Bytes} {a n : Nat} (hp : bs <+: data.drop a) (hn : bs.length ≤ n) :
    AtPlace data (Rd.within n r) v a (a + n) := by
  intro s hs
  obtain ⟨e, he⟩ := h data s hs a (8 * a + 8 * n) hp (by omega)
  rw [Rd.within, he]
  exact congrArg (fun n => Except.ok (v, n)) (by omega)

theorem Reads.some {α : Type} {r : Rd α} {v : α} {bs : Bytes} (h : Reads r v bs) : ReadsSome r v bs :=
  fun data s hs k stop hp hst => ⟨_, h data s hs k stop hp hst⟩

theorem Reads.bind_some {α β : Type} {r : Rd α} {f : α → Rd β} {v : α} {w : β} {xs ys : Bytes} (h1 : Reads r v xs) (h2 : ReadsSome (f v) w ys) :
    ReadsSome (r >>= f) w (xs ++ ys) := by
  intro data s hs k stop hp hst
  obtain ⟨t, ht⟩ := hp
  have hp1 : xs <+: data.drop k := ⟨ys ++ t, by rw [← ht, List.append_assoc]⟩
  have hp2 : ys <+: data.drop (k + xs.length) := ⟨t, by rw [← List.drop_drop, ← ht, List.append_assoc, List.drop_left]⟩
  rw [List.length_append] at hst
  obtain ⟨e, he⟩ := h2 data s hs (k + xs.length) stop hp2 (by omega)
  refine ⟨e, ?_⟩
  show Rd.bind r f s stop (8 * k) = _
  rw [Rd.bind, h1 data s hs k stop hp1 (by omega)]
  exact he

theorem ReadsSome.map {α β : Type} {r : Rd α} {f : α → β} {v : α} {bs : Bytes} (h : ReadsSome r v bs) : ReadsSome (r >>= fun x => Pure.pure (f x)) (f v) bs := by
  intro data s hs k stop hp hst
  obtain ⟨e, he⟩ := h data s hs k stop hp hst
  refine ⟨e, ?_⟩
  show Rd.bind r _ s stop (8 * k) = _
  rw [Rd.bind, he]
  rfl

/-- Behind a record that fails nothing is read. -/
theorem attempt_fails (more : Rd (List Nat × List Record)) (c : List Nat) (r : Record) (g : DsRecordGood r) (rest : Bytes) :
    ReadsSome (DsStore.attempt (record bytesIsText) >>= addRound more c) (c, []) (dsRecord r ++ rest) := by
  intro data s hs k stop hp hst
  obtain ⟨t, ht⟩ := hp
  have hp1 : dsRecord r <+: data.drop k := ⟨rest ++ t, by rw [← ht, List.append_assoc]⟩
  rw [List.length_append] at hst
  have := ds_record_fails r g data s hs k stop hp1 (by omega)
  refine ⟨8 * k, ?_⟩
  show Rd.bind (DsStore.attempt _) _ s stop (8 * k) = _
  rw [Rd.bind, DsStore.attempt, this]
  rfl

theorem reads_node (t : BTree) {data : Bytes} {a : Allocator} (h : TreeAt data a t) : Reads (node (· == ·)) t.node t.bytes := by
  cases h with
  | leaf b rs place size _ _ _ hc hr =>
    refine Reads.bind (reads_int_be 4 0 (by decide) (by decide)) ?_
    refine Reads.bind (reads_int_be 4 _ (by decide) hc) ?_
    rw [if_neg (by decide)]
    exact Reads.map (f := fun x : List Nat × List Record => Node.mk 0 rs.length x.1 x.2) (reads_ds_records rs hr)
  | inner b ps l place size _ _ _ hc h0 hl hr _ _ =>
    refine Reads.bind (reads_int_be 4 _ (by decide) hl) ?_
    refine Reads.bind (reads_int_be 4 _ (by decide) hc) ?_
    rw [if_pos h0]
    exact Reads.map (f := fun x : List Nat × List Record => Node.mk l.block ps.length x.1 x.2) (reads_ds_pairs ps hr)

theorem sees_node (t : BTree) {data : Bytes} {a : Allocator} (h : TreeAt data a t) : ReadsSome (node bytesIsText) t.seen t.bytes := by
  cases h with
  | leaf b rs place size _ _ _ hc hr =>
    refine Reads.bind_some (reads_int_be 4 0 (by decide) (by decide)) ?_
    refine Reads.bind_some (reads_int_be 4 _ (by decide) hc) ?_
    rw [if_neg (by decide)]
    refine ReadsSome.map (f := fun x : List Nat × List Record => Node.mk 0 rs.length x.1 x.2) (v := ([], [])) ?_
    cases rs with
    | nil => exact (reads_pure _).some
    | cons r rs =>
      rw [List.length_cons, records, List.flatMap_cons]
      exact attempt_fails _ _ r (hr r (by simp)) _
  | inner b ps l place size _ _ _ hc h0 hl hr _ _ =>
    refine Reads.bind_some (reads_int_be 4 _ (by decide) hl) ?_
    refine Reads.bind_some (reads_int_be 4 _ (by decide) hc) ?_
    rw [if_pos h0]
    refine ReadsSome.map (f := fun x : List Nat × List Record => Node.mk l.block ps.length x.1 x.2) (v := ((ps.take 1).map (·.1.block), [])) ?_
    cases ps with
    | nil => exact (reads_pure _).some
    | cons p ps =>
      obtain ⟨h1, h2⟩ := hr p (by simp)
      rw [List.length_cons, DsStore.pairs, List.flatMap_cons, List.append_assoc]
      refine Reads.bind_some (reads_int_be 4 _ (by decide) h1) ?_
      exact attempt_fails _ _ p.2 h2 _

theorem at_block {data : Bytes} {a : Allocator} {n : Nat} {x : Nat × Nat} (h : a.blocks[n]? = some x) (p : Nat) : AtPlace data (getBlock a n) x p p := by
  intro s hs
  rw [getBlock, h]
  rfl

/-- A walk over trees, with any view of nodes. -/
theorem at_walk {data : Bytes} {a : Allocator} (eq : Bytes → Bytes → Bool) (view : BTree → Node) (kids : BTree → List BTree) (ord : BTree → List (Nat × Node))
    (h1 : ∀ t, ord t = (t.block, view t) :: (kids t).flatMap ord) (h2 : ∀ t, TreeAt data a t → nextBlocks (view t) = (kids t).map BTree.block)
    (h3 : ∀ t, TreeAt data a t → ∀ k ∈ kids t, TreeAt data a k)
    (h4 : ∀ t p, TreeAt data a t → ∃ q, AtPlace data (nodeAt eq a t.block) (view t) p q) : ∀ (fuel : Nat) (ts : List BTree) (p : Nat), (∀ t ∈ ts, TreeAt data a t) →
    (ts.flatMap ord).length ≤ fuel → ∃ q, AtPlace data (walk eq a fuel (ts.map BTree.block)) (ts.flatMap ord) p q
  | fuel, [], p, _, _ => ⟨p, by cases fuel <;> exact at_pure data _ p⟩
  | 0, t :: ts, p, _, h => by
    rw [List.flatMap_cons, h1] at h
    simp at h
  | fuel + 1, t :: ts, p, ht, h => by
    have g := ht t (by simp)
    obtain ⟨q, hq⟩ := h4 t p g
    rw [List.flatMap_cons, h1, List.cons_append, List.length_cons, ← List.flatMap_append] at h
    obtain ⟨e, he⟩ := at_walk eq view kids ord h1 h2 h3 h4 fuel (kids t ++ ts) q (fun x hx => by
      rcases List.mem_append.1 hx with hx | hx
      · exact h3 t g x hx
      · exact ht x (by simp [hx])) (by omega)
    refine ⟨e, ?_⟩
    rw [List.map_cons, walk, List.flatMap_cons, h1 t, List.cons_append, ← List.flatMap_append]
    refine AtPlace.bind hq ?_
    rw [h2 t g, ← List.map_append]
    exact AtPlace.map (f := fun l => (t.block, view t) :: l) he

theorem place_le {data bs : Bytes} {n : Nat} (h : bs <+: data.drop n) (h0 : bs ≠ []) : n ≤ data.length := by
  have := h.length_le
  have := List.length_pos_of_ne_nil h0
  rw [List.length_drop] at *
  omega

theorem node_at {data : Bytes} {a : Allocator} (t : BTree) (p : Nat) (h : TreeAt data a t) : ∃ q, AtPlace data (nodeAt (· == ·) a t.block) t.node p q := by
  have hr := reads_node t h
  cases h with
  | leaf b rs place size h1 h2 h3 _ _ =>
    exact ⟨_, AtPlace.bind (at_block h1 p) (AtPlace.bind (at_jump data p _) (hr.within_at h2 h3))⟩
  | inner b ps l place size h1 h2 h3 _ _ _ _ _ _ =>
    exact ⟨_, AtPlace.bind (at_block h1 p) (AtPlace.bind (at_jump data p _) (hr.within_at h2 h3))⟩

theorem seen_at {data : Bytes} {a : Allocator} (t : BTree) (p : Nat) (h : TreeAt data a t) : ∃ q, AtPlace data (nodeAt bytesIsText a t.block) t.seen p q := by
  have hr := sees_node t h
  cases h with
  | leaf b rs place size h1 h2 h3 _ _ =>
    exact ⟨_, AtPlace.bind (at_block h1 p) (AtPlace.bind (at_jump data p _) (hr.within_at h2 h3))⟩
  | inner b ps l place size h1 h2 h3 _ _ _ _ _ _ =>
    exact ⟨_, AtPlace.bind (at_block h1 p) (AtPlace.bind (at_jump data p _) (hr.within_at h2 h3))⟩

/-- **C148** (partial): with types compared as bytes all nodes of all trees would be visited, with all their records, each before its children and the children in their order. -/
theorem C148_tree_partial {data : Bytes} {a : Allocator} (t : BTree) (h : TreeAt data a t) (p fuel : Nat) (hf : t.order.length ≤ fuel) :
    ∃ q, AtPlace data (walk (· == ·) a fuel [t.block]) t.order p q := by
  have := at_walk (data := data) (a := a) (· == ·) BTree.node BTree.children BTree.order BTree.order_cons (fun t h => by
      cases h with
      | leaf => rfl
      | inner b ps l place size _ _ _ _ h0 _ _ _ _ =>
        show (if l.block ≠ 0 then _ else _) = _
        rw [if_pos h0]
        simp [BTree.children, BTree.node])
    (fun t h k hk => by
      cases h with
      | leaf => simp [BTree.children] at hk
      | inner b ps l place size _ _ _ _ _ _ _ hp hl =>
        rcases List.mem_append.1 hk with hk | hk
        · obtain ⟨x, hx, rfl⟩ := List.mem_map.1 hk
          exact hp x hx
        · rw [List.mem_singleton] at hk
          exact hk ▸ hl)
    (fun t p h => node_at t p h) fuel [t] p (by simpa using h) (by simpa using hf)
  simpa using this

/-- Violation: of all trees the code visits only the first and the last child of each node, and no record is read. -/
theorem C148_lost {data : Bytes} {a : Allocator} (t : BTree) (h : TreeAt data a t) (p fuel : Nat) (hf : t.visited.length ≤ fuel) :
    ∃ q, AtPlace data (walk bytesIsText a fuel [t.block]) t.visited p q := by
  have := at_walk (data := data) (a := a) bytesIsText BTree.seen BTree.seenChildren BTree.visited BTree.visited_cons (fun t h => by
      cases h with
      | leaf => rfl
      | inner b ps l place size _ _ _ _ h0 _ _ _ _ =>
        show (if l.block ≠ 0 then _ else _) = _
        rw [if_pos h0]
        simp only [BTree.seenChildren, BTree.seen, List.map_append, List.map_map, List.map_cons, List.map_nil]
        rfl)
    (fun t h k hk => by
      cases h with
      | leaf => simp [BTree.seenChildren] at hk
      | inner b ps l place size _ _ _ _ _ _ _ hp hl =>
        rcases List.mem_append.1 hk with hk | hk
        · obtain ⟨x, hx, rfl⟩ := List.mem_map.1 hk
          exact hp x (List.mem_of_mem_take hx)
        · rw [List.mem_singleton] at hk
          exact hk ▸ hl)
    (fun t p h => seen_at t p h) fuel [t] p (by simpa using h) (by simpa using hf)
  simpa using this

/-- What is visited has no record. -/
theorem C148_lost_records : ∀ t : BTree, ∀ x ∈ t.visited, x.2.records = []
  | .leaf b rs, x, hx => by
    rw [BTree.visited, List.mem_singleton] at hx
    subst hx; rfl
  | .inner b [] l, x, hx => by
    rw [BTree.visited, List.mem_cons] at hx
    rcases hx with rfl | hx
    · rfl
    · exact C148_lost_records l x hx
  | .inner b ((c, r) :: ps) l, x, hx => by
    rw [BTree.visited, List.mem_cons, List.mem_append] at hx
    rcases hx with rfl | hx | hx
    · rfl
    · exact C148_lost_records c x hx
    · exact C148_lost_records l x hx

/-! ## The file -/

/-- An address: a place that is a multiple of 32 and the logarithm of a size, in one number. -/
def dsAddress (x : Nat × Nat) : Bytes := beBytes 4 (x.1 + x.2)

/-- The value of an address. -/
def dsPlace (x : Nat × Nat) : Nat × Nat := (x.1, 2 ^ x.2)

def DsAddressGood (x : Nat × Nat) : Prop := x.1 % 32 = 0 ∧ x.1 < 2 ^ 32 ∧ x.2 < 32

theorem reads_ds_address (x : Nat × Nat) (h : DsAddressGood x) : Reads address (dsPlace x) (dsAddress x) := by
  obtain ⟨h1, h2, h3⟩ := h
  have e : dsAddress x = beBytes 4 (joinBE [27, 5] [x.1 / 32, x.2]) := by
    rw [dsAddress]
    simp only [joinBE, List.sum_cons, List.sum_nil]
    congr 1
    norm_num
    omega
  rw [e]
  have := Reads.map (f := addressOf) (reads_packed_be 4 [27, 5] [x.1 / 32, x.2] (by decide) rfl ⟨by omega, by omega, trivial⟩)
  refine this.of_eq ?_ rfl
  show (x.1 / 32 * 32, 2 ^ x.2) = _
  rw [show x.1 / 32 * 32 = x.1 by omega]
  rfl

/-- The header: 32 bytes. -/
def dsHeader (offset size backup : Nat) (copies : List (Nat × Nat)) : Bytes :=
  "Bud1".toUTF8.toList ++ (beBytes 4 offset ++ (beBytes 4 size ++ (beBytes 4 backup ++ copies.flatMap dsAddress)))

theorem reads_ds_header (offset size backup : Nat) (copies : List (Nat × Nat)) (h1 : offset < 2 ^ 32) (h2 : size < 2 ^ 32) (h3 : backup < 2 ^ 32)
    (h4 : copies.length = 4) (h5 : ∀ x ∈ copies, DsAddressGood x) :
    Reads bud ⟨"Bud1".toUTF8.toList, offset, size, backup, copies.map dsPlace⟩ (dsHeader offset size backup copies) := by
  refine Reads.bind (reads_raw_n 4 _ (by decide +kernel) (by decide)) ?_
  refine Reads.bind (reads_int_be 4 _ (by decide) h1) ?_
  refine Reads.bind (reads_int_be 4 _ (by decide) h2) ?_
  refine Reads.bind (reads_int_be 4 _ (by decide) h3) ?_
  have := reads_times_map address dsPlace dsAddress copies fun c hc => reads_ds_address c (h5 c hc)
  rw [h4] at this
  exact Reads.map this

/-- The allocator as it is written: blocks, filled up to a multiple of 256 blocks, directories, 32 lists of free blocks. -/
structure Alloc where
  unknown : Nat
  blocks : List (Nat × Nat)
  dirs : List (Bytes × Nat)
  free : List (List Nat)

def dsFree (l : List Nat) : Bytes := beBytes 4 l.length ++ l.flatMap (beBytes 4)

def dsDir (d : Bytes × Nat) : Bytes := (UInt8.ofNat d.1.length :: d.1) ++ beBytes 4 d.2

def dsAlloc (a : Alloc) : Bytes :=
  beBytes 4 a.blocks.length ++ (beBytes 4 a.unknown ++ (a.blocks.flatMap dsAddress ++ (List.replicate (4 * ((256 - a.blocks.length % 256) % 256)) 0 ++
    (beBytes 4 a.dirs.length ++ (a.dirs.flatMap dsDir ++ a.free.flatMap dsFree)))))

structure AllocGood (a : Alloc) : Prop where
  count : a.blocks.length < 2 ^ 32
  unknown : a.unknown < 2 ^ 32
  blocks : ∀ x ∈ a.blocks, DsAddressGood x
  dirCount : a.dirs.length < 2 ^ 32
  dirs : ∀ d ∈ a.dirs, d.1.length < 256 ∧ d.2 < 2 ^ 32
  lists : a.free.length = 32
  free : ∀ l ∈ a.free, l.length < 2 ^ 32 ∧ ∀ n ∈ l, n < 2 ^ 32

def Alloc.read (a : Alloc) : Allocator := ⟨a.blocks.map dsPlace, a.dirs, a.free⟩

theorem reads_ds_padding (n : Nat) : Reads (skipPadding n) () (List.replicate (4 * ((256 - n % 256) % 256)) 0) := by
  rw [skipPadding]
  by_cases h : n % 256 = 0
  · rw [if_pos h, h]
    exact reads_pure _
  · rw [if_neg h, show 4 * ((256 - n % 256) % 256) = (256 - n % 256) * 4 by omega]
    exact Reads.map (f := fun _ => ()) (reads_raw_n _ _ (List.length_replicate ..) (by omega))

/-- **C148**: blocks, directories and free lists are read as they were written. -/
theorem C148_allocator (a : Alloc) (g : AllocGood a) : Reads allocator a.read (dsAlloc a) := by
  refine Reads.bind (reads_int_be 4 _ (by decide) g.count) ?_
  refine Reads.bind (reads_int_be 4 _ (by decide) g.unknown) ?_
  refine Reads.bind (reads_times_map address dsPlace dsAddress a.blocks fun c hc => reads_ds_address c (g.blocks c hc)) ?_
  refine Reads.bind (reads_ds_padding _) ?_
  refine Reads.bind (reads_int_be 4 _ (by decide) g.dirCount) ?_
  refine Reads.bind (reads_times_n directory dsDir a.dirs _ rfl fun d hd => ?_) ?_
  · exact Reads.bind (reads_pascal8 .big (by decide) .eightBit (by decide) d.1 (g.dirs d hd).1) (Reads.map (f := fun b => (d.1, b)) (reads_int_be 4 _ (by decide) (g.dirs d hd).2))
  · refine Reads.map (f := fun f => Allocator.mk _ a.dirs f) (reads_times_n freeList dsFree a.free 32 g.lists.symm fun l hl => ?_)
    exact Reads.bind (reads_int_be 4 _ (by decide) (g.free l hl).1) (reads_times_n _ (beBytes 4) l _ rfl fun n hn => reads_int_be 4 n (by decide) ((g.free l hl).2 n hn))

def dsTree (t : DsStore.Tree) : Bytes := beBytes 4 t.root ++ (beBytes 4 t.levels ++ (beBytes 4 t.records ++ (beBytes 4 t.nodes ++ beBytes 4 t.unknown)))

def DsTreeGood (t : DsStore.Tree) : Prop := t.root < 2 ^ 32 ∧ t.levels < 2 ^ 32 ∧ t.records < 2 ^ 32 ∧ t.nodes < 2 ^ 32 ∧ t.unknown < 2 ^ 32

theorem reads_ds_tree (t : DsStore.Tree) (g : DsTreeGood t) : Reads dsdb t (dsTree t) := by
  obtain ⟨h1, h2, h3, h4, h5⟩ := g
  refine Reads.bind (reads_int_be 4 _ (by decide) h1) ?_
  refine Reads.bind (reads_int_be 4 _ (by decide) h2) ?_
  refine Reads.bind (reads_int_be 4 _ (by decide) h3) ?_
  refine Reads.bind (reads_int_be 4 _ (by decide) h4) ?_
  exact Reads.map (f := fun u => DsStore.Tree.mk t.root t.levels t.records t.nodes u) (reads_int_be 4 _ (by decide) h5)

/-- What is free: of a block of `2 ^ i` bytes what the file has of it. -/
def freeBytes (data : Bytes) (i offset : Nat) : Option Bytes :=
  if (data.drop (offset + 4)).take (2 ^ i) = [] then none else some ((data.drop (offset + 4)).take (2 ^ i))

theorem at_free (data : Bytes) (i offset p : Nat) : ∃ q, AtPlace data (freeBlock data.length i offset) (freeBytes data i offset) p q := by
  have hl : ((data.drop (offset + 4)).take (2 ^ i)).length = min (2 ^ i) (data.length - offset - 4) := by
    rw [List.length_take, List.length_drop]
    omega
  rw [freeBlock, freeBytes]
  by_cases h : min (2 ^ i) (data.length - offset - 4) = 0
  · rw [if_pos h, if_pos (List.eq_nil_of_length_eq_zero (hl.trans h))]
    exact ⟨p, at_pure data _ p⟩
  · rw [if_neg h, if_neg (fun e => h (hl.symm.trans (by rw [e]; rfl)))]
    have hp := List.take_prefix (2 ^ i) (data.drop (offset + 4))
    refine ⟨_, AtPlace.bind (at_jump data p _) (AtPlace.map (f := some) ((reads_raw_n _ _ hl (by omega)).at hp ?_))⟩
    omega

theorem at_frees (data : Bytes) : ∀ (ls : List (List Nat)) (i p : Nat), ∃ q, AtPlace data (freeBlocks data.length i ls)
    (ls.mapIdx fun j l => l.map (freeBytes data (i + j))) p q
  | [], i, p => ⟨p, at_pure data _ p⟩
  | l :: ls, i, p => by
    have he : ∀ (l : List Nat) (p : Nat), ∃ q, AtPlace data (Rd.each (freeBlock data.length i) l) (l.map (freeBytes data i)) p q := by
      intro l
      induction l with
      | nil => intro p; exact ⟨p, at_pure data _ p⟩
      | cons x l ih =>
        intro p
        obtain ⟨b, hb⟩ := at_free data i x p
        obtain ⟨c, hc⟩ := ih b
        exact ⟨c, AtPlace.bind hb (AtPlace.map (f := fun vs => freeBytes data i x :: vs) hc)⟩
    obtain ⟨q, hq⟩ := he l p
    obtain ⟨e, h⟩ := at_frees data ls (i + 1) q
    refine ⟨e, ?_⟩
    rw [freeBlocks, List.mapIdx_cons]
    refine AtPlace.bind hq ?_
    have : (fun j l => List.map (freeBytes data (i + (j + 1))) l) = fun j l => List.map (freeBytes data (i + 1 + j)) l := by
      funext j l
      rw [show i + (j + 1) = i + 1 + j by omega]
    rw [this]
    exact AtPlace.map (f := fun xs => List.map (freeBytes data i) l :: xs) h

/-- A file: header, allocator, the description of the tree in the block of the directory DSDB, and the tree, all at the places that are told. -/
structure StoreAt (data : Bytes) (size : Nat) (offset backup : Nat) (copies : List (Nat × Nat)) (a : Alloc) (block place log : Nat) (t : DsStore.Tree) (tree : BTree) : Prop where
  headerOk : beBytes 4 1 ++ dsHeader offset size backup copies <+: data
  offsetOk : offset < 2 ^ 32
  sizeOk : size < 2 ^ 32
  backupOk : backup < 2 ^ 32
  copiesOk : copies.length = 4 ∧ ∀ x ∈ copies, DsAddressGood x
  good : AllocGood a
  alloc : dsAlloc a <+: data.drop (offset + 4)
  fits : (dsAlloc a).length ≤ size
  dsdbOk : ∃ before after, a.dirs = before ++ ("DSDB".toUTF8.toList, block) :: after ∧ ∀ d ∈ before, d.1 ≠ "DSDB".toUTF8.toList
  blockOk : a.blocks[block]? = some (place, log)
  treeGood : DsTreeGood t
  treeAt : dsTree t <+: data.drop (place + 4)
  treeFits : 20 ≤ 2 ^ log
  root : t.root = tree.block
  treeOk : TreeAt data a.read tree

theorem at_store {data : Bytes} {size offset backup : Nat} {copies : List (Nat × Nat)} {a : Alloc} {block place log : Nat} {t : DsStore.Tree} {tree : BTree}
    (h : StoreAt data size offset backup copies a block place log t tree) (eq : Bytes → Bytes → Bool) (fuel : Nat) (nodes : List (Nat × Node))
    (hw : ∀ p, ∃ q, AtPlace data (walk eq a.read fuel [tree.block]) nodes p q) :
    ∃ q, AtPlace data (file eq fuel) ⟨⟨"Bud1".toUTF8.toList, offset, size, backup, copies.map dsPlace⟩, a.read, t, nodes,
      a.free.mapIdx fun i l => l.map (freeBytes data i)⟩ 0 q := by
  obtain ⟨before, after, hd, hb⟩ := h.dsdbOk
  have ebud : "DSDB".toUTF8.toList = [0x44, 0x53, 0x44, 0x42] := by decide +kernel
  rw [ebud] at hd hb
  have hfind : a.read.dirs.find? (fun d => d.1 == [0x44, 0x53, 0x44, 0x42]) = some ([0x44, 0x53, 0x44, 0x42], block) := by
    show a.dirs.find? _ = _
    rw [hd, List.find?_append, List.find?_eq_none.2 (fun d hd => by simpa using hb d hd)]
    rfl
  have hblock : a.read.blocks[block]? = some (place, 2 ^ log) := by
    show (a.blocks.map dsPlace)[block]? = _
    rw [List.getElem?_map, h.blockOk]
    rfl
  obtain ⟨t1, ht1⟩ := h.headerOk
  have hh : dsHeader offset size backup copies <+: data.drop 4 := ⟨t1, by rw [← ht1]; rfl⟩
  have hl : 4 ≤ data.length := by
    rw [← ht1, List.length_append, List.length_append, beBytes_length]; omega
  have tl : (dsTree t).length = 20 := by simp [dsTree, beBytes_length]
  have p1 : AtPlace data (Rd.int 4 .big) 1 0 4 :=
    (reads_int_be 4 1 (by decide) (by decide)).at (data := data) (a := 0) ⟨dsHeader offset size backup copies ++ t1, by rw [← ht1]; simp⟩ (by omega)
  have p2 := (reads_ds_header offset size backup copies h.offsetOk h.sizeOk h.backupOk h.copiesOk.1 h.copiesOk.2).at hh hl
  have p3 : ∀ p, AtPlace data (treeAt a.read) t p (place + 4 + 2 ^ log) := by
    intro p
    have d : AtPlace data (dsdbBlock a.read) block p p := by
      intro s hs
      rw [dsdbBlock, hfind]
      rfl
    refine AtPlace.bind d (AtPlace.bind (at_block hblock p) (AtPlace.bind (at_jump data p _) ?_))
    exact (reads_ds_tree t h.treeGood).within_at h.treeAt (by rw [tl]; exact h.treeFits)
  obtain ⟨q, hq⟩ := hw (place + 4 + 2 ^ log)
  obtain ⟨e, he⟩ := at_frees data a.free 0 q
  refine ⟨e, ?_⟩
  refine AtPlace.bind p1 (AtPlace.bind p2 (AtPlace.bind (at_jump data _ (offset + 4)) ?_))
  refine AtPlace.bind ((C148_allocator a h.good).within_at h.alloc h.fits) ?_
  refine AtPlace.bind (p3 _) ?_
  rw [h.root]
  refine AtPlace.bind hq ?_
  refine AtPlace.bind (at_limit data q) ?_
  rw [show 8 * data.length / 8 = data.length by omega]
  simp only [Nat.zero_add] at he
  exact AtPlace.map (f := fun free => File.mk ⟨"Bud1".toUTF8.toList, offset, size, backup, copies.map dsPlace⟩ a.read t nodes free) he

/-- **C148** (violated in part): header, allocator, description of the tree and free blocks of all files are read as they were written; of the tree itself the code reads only
the first and the last child of each node, and no record. -/
theorem C148_file_partial {data : Bytes} {size offset backup : Nat} {copies : List (Nat × Nat)} {a : Alloc} {block place log : Nat} {t : DsStore.Tree} {tree : BTree}
    (h : StoreAt data size offset backup copies a block place log t tree) (fuel : Nat) (hf : tree.visited.length ≤ fuel) :
    ∃ q, AtPlace data (readFile fuel) ⟨⟨"Bud1".toUTF8.toList, offset, size, backup, copies.map dsPlace⟩, a.read, t, tree.visited,
      a.free.mapIdx fun i l => l.map (freeBytes data i)⟩ 0 q :=
  at_store h bytesIsText fuel _ fun p => C148_lost tree h.treeOk p fuel hf

/-- With types compared as bytes, the whole of all files would be read. -/
theorem C148_fixed {data : Bytes} {size offset backup : Nat} {copies : List (Nat × Nat)} {a : Alloc} {block place log : Nat} {t : DsStore.Tree} {tree : BTree}
    (h : StoreAt data size offset backup copies a block place log t tree) (fuel : Nat) (hf : tree.order.length ≤ fuel) :
    ∃ q, AtPlace data (file (· == ·) fuel) ⟨⟨"Bud1".toUTF8.toList, offset, size, backup, copies.map dsPlace⟩, a.read, t, tree.order,
      a.free.mapIdx fun i l => l.map (freeBytes data i)⟩ 0 q :=
  at_store h (· == ·) fuel _ fun p => C148_tree_partial tree h.treeOk p fuel hf

/-! ## Examples -/

/-- A tree with three leaves: the one in the middle is not visited. -/
def dsSample : BTree := .inner 1 [(.leaf 2 [⟨[0, 97], [1, 2, 3, 4], .bool 1⟩], ⟨[0, 98], [1, 2, 3, 4], .long 5⟩),
  (.leaf 3 [⟨[0, 99], [1, 2, 3, 4], .blob [7]⟩], ⟨[0, 100], [1, 2, 3, 4], .text [0, 65]⟩)] (.leaf 4 [])

example : dsSample.order.map (·.1) = [1, 2, 3, 4] ∧ dsSample.visited.map (·.1) = [1, 2, 4] := by
  constructor
  · simp [dsSample, BTree.order, BTree.orders]
  · simp [dsSample, BTree.visited]

example : DsRecordGood ⟨[0, 98], [1, 2, 3, 4], .long 5⟩ := ⟨by unfold DsTextGood; decide, rfl, by unfold DsValueGood; decide⟩

end Hachoir.Props
