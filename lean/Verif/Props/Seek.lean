import Verif.Field.Seek
import Verif.Props.Gaps

/-!
# C75, C76: moving in field sets
-/

set_option linter.unusedVariables false

namespace Hachoir.Props
open Hachoir Hachoir.FieldSet Hachoir.Seek

/-! ### C75: padding up to an address -/

/-- The address in the field set that is meant. -/
def meant (base address : Int) (relative : Bool) : Int := if relative then address else address - base

/-- C75.  `seekBit` refuses to go back, makes nothing when the field set is there already, and
otherwise a field that ends exactly at the address, of bytes if it can be, made of null padding if
that was asked for. -/
theorem C75_seek (base cur address : Int) (relative null : Bool) :
    (meant base address relative < cur → seekBit base cur address relative null = .error .parser) ∧
    (meant base address relative = cur → seekBit base cur address relative null = .ok none) ∧
    (cur < meant base address relative → meant base address relative - cur ≤ 2 ^ 67 →
      ∃ kind n, seekBit base cur address relative null = .ok (some (kind, n)) ∧
        cur + kind.bits n = meant base address relative ∧
        (kind = .paddingBytes ∨ kind = .nullBytes ↔ (meant base address relative - cur) % 8 = 0) ∧
        (kind = .nullBytes ∨ kind = .nullBits ↔ null = true)) := by
  have hn : (if relative then address - cur else address - (base + cur)) = meant base address relative - cur := by
    unfold meant
    cases relative
    · simp; omega
    · simp
  obtain ⟨m, hm⟩ : ∃ m, meant base address relative = m := ⟨_, rfl⟩
  rw [hm] at hn ⊢
  unfold seekBit
  simp only
  rw [hn]
  refine ⟨?_, ?_, ?_⟩
  · intro h
    rw [if_pos (by omega)]
  · intro h
    rw [if_neg (by omega), if_neg (by omega)]
  · intro h hmax
    rw [if_neg (by omega), if_pos (by omega)]
    unfold createPadding
    rw [if_neg (by omega)]
    by_cases h8 : (m - cur) % 8 = 0
    · rw [if_pos h8, if_neg (by omega)]
      refine ⟨_, _, rfl, ?_, ?_, ?_⟩
      · cases null
        · show cur + 8 * ((m - cur) / 8) = m; omega
        · show cur + 8 * ((m - cur) / 8) = m; omega
      · cases null <;> simp [h8]
      · cases null <;> simp
    · rw [if_neg h8]
      refine ⟨_, _, rfl, ?_, ?_, ?_⟩
      · cases null
        · show cur + (m - cur) = m; omega
        · show cur + (m - cur) = m; omega
      · cases null <;> simp [h8]
      · cases null <;> simp

/-- Non-vacuity: bits, bytes, absolute addresses. -/
example : seekBit 64 10 16 true false = .ok (some (.paddingBits, 6)) ∧
    seekBit 64 8 128 false true = .ok (some (.nullBytes, 7)) ∧ seekBit 64 8 71 false true = .error .parser := by
  decide

theorem appendPart_leaf (fs : FS) (nn : Name) (a sz : Nat) :
    (∃ n counts', appendPart fs (.leaf nn a sz) false =
      ({ fs with cur := fs.cur + sz, counts := counts', fields := fs.fields ++ [.leaf n a sz] }, .ok n)) ∨
    (appendPart fs (.leaf nn a sz) false).2 = .raise .uniqKey := by
  have hno : ∀ (fs : FS) (f : Fld), f.name ∈ fs.fields.map Fld.name → appendField fs f = .error .uniqKey :=
    fun fs f h => by rw [appendField, if_pos h]
  have hyes : ∀ (fs : FS) (f : Fld), ¬ f.name ∈ fs.fields.map Fld.name →
      appendField fs f = .ok { fs with fields := fs.fields ++ [f] } :=
    fun fs f h => by rw [appendField, if_neg h]
  unfold appendPart
  simp only
  by_cases hc : nn ∈ fs.fields.map Fld.name
  · rw [hno { fs with cur := fs.cur + (Fld.leaf nn a sz).size } (.leaf nn a sz) hc]
    simp only
    obtain ⟨un, hun⟩ : ∃ un, uniqueName fs.counts ((Fld.leaf nn a sz).name ++ ['[', ']']) = un := ⟨_, rfl⟩
    rw [hun]
    by_cases hc2 : un.1 ∈ fs.fields.map Fld.name
    · right
      rw [hno { fs with cur := fs.cur + (Fld.leaf nn a sz).size, counts := un.2 } (Fld.rename un.1 (Fld.leaf nn a sz)) hc2]
    · left
      rw [hyes { fs with cur := fs.cur + (Fld.leaf nn a sz).size, counts := un.2 } (Fld.rename un.1 (Fld.leaf nn a sz)) hc2]
      exact ⟨_, _, rfl⟩
  · left
    rw [hyes { fs with cur := fs.cur + (Fld.leaf nn a sz).size } (.leaf nn a sz) hc]
    exact ⟨_, _, rfl⟩

/-- C75.  In a field set with enough room the padding is added behind the last field, and the next
field starts at the address (the only other outcome is that there is no name left for it). -/
theorem C75_next (fuel : Nat) (af : Bool) (ctx : Int) (fs : FS) (name : Name) (base address : Int) (relative null : Bool)
    (p : Kind × Int) (h : seekBit base fs.cur address relative null = .ok (some p))
    (hmax : meant base address relative - fs.cur ≤ 2 ^ 67)
    (hroom : meant base address relative ≤ FieldSet.room fs ctx) :
    (∃ fs' n, FieldSet.addField (fuel + 1) af ctx fs (seekItem name p) = (fs', .ok n) ∧
      (fs'.cur : Int) = meant base address relative ∧
      fs'.fields = fs.fields ++ [.leaf n fs.cur (meant base address relative - fs.cur).toNat]) ∨
    (FieldSet.addField (fuel + 1) af ctx fs (seekItem name p)).2 = .raise .uniqKey := by
  obtain ⟨h1, h2, h3⟩ := C75_seek base fs.cur address relative null
  have hlt : (fs.cur : Int) < meant base address relative := by
    rcases Int.lt_trichotomy (meant base address relative) fs.cur with hh | hh | hh
    · rw [h1 hh] at h; cases h
    · rw [h2 hh] at h; cases h
    · exact hh
  obtain ⟨kind, n, e1, e2, _⟩ := h3 hlt hmax
  rw [e1] at h
  injection h with h
  injection h with h
  subst h
  obtain ⟨m, hm⟩ : ∃ m, meant base address relative = m := ⟨_, rfl⟩
  rw [hm] at hlt hmax hroom e2 ⊢
  have hsz : (kind.bits n).toNat = (m - fs.cur).toNat := by omega
  unfold seekItem
  simp only [FieldSet.addField]
  rw [hsz]
  obtain ⟨nm, hnm⟩ : ∃ nm, nameItem fs name = nm := ⟨_, rfl⟩
  rw [hnm]
  obtain ⟨nn, counts⟩ := nm
  simp only
  unfold placeField fixFieldSize
  have hd : ¬ (FieldSet.room { fs with counts := counts } ctx - ((fs.cur + (m - fs.cur).toNat : Nat) : Int) < 0) := by
    have : FieldSet.room { fs with counts := counts } ctx = FieldSet.room fs ctx := rfl
    rw [this]
    omega
  simp only
  have hd2 : ¬ (FieldSet.room { fs with counts := counts } ctx -
      (({ fs with counts := counts } : FS).cur + (Fld.leaf nn fs.cur (m - fs.cur).toNat).size : Nat) < 0 ∨
      (false = true ∧ (Fld.leaf nn fs.cur (m - fs.cur).toNat).size = 0)) := by
    rintro (hh | ⟨hh, _⟩)
    · exact hd hh
    · cases hh
  rw [if_neg hd2]
  simp only
  rcases appendPart_leaf { fs with counts := counts } nn fs.cur (m - fs.cur).toNat with ⟨n', c', e⟩ | e
  · left
    rw [e]
    exact ⟨_, _, rfl, by simp only; omega, rfl⟩
  · exact .inr e

/-! ### C76: seekable field sets -/

/-- Where the fields of the moves lie. -/
def laid (base : Int) : Int → List Move → List (Int × Int)
  | _, [] => []
  | _, .raise _ :: _ => []
  | _, .seek address relative :: l => laid base (meant base address relative) l
  | pos, .field size _ :: l => (pos, (size : Int)) :: laid base (pos + size) l

/-- The position at the end. -/
def endsAt (base : Int) : Int → List Move → Int
  | pos, [] => pos
  | pos, .raise _ :: _ => pos
  | _, .seek address relative :: l => endsAt base (meant base address relative) l
  | pos, .field size _ :: l => endsAt base (pos + size) l

/-- All moves are possible in a room: no position before the start, no field behind the end, no
empty field set, no exception. -/
def Possible (base room : Int) : Int → List Move → Prop
  | _, [] => True
  | _, .raise _ :: _ => False
  | _, .seek address relative :: l =>
    0 ≤ meant base address relative ∧ Possible base room (meant base address relative) l
  | pos, .field size isSet :: l => pos + size ≤ room ∧ (isSet = true → 0 < size) ∧ Possible base room (pos + size) l

theorem run_possible (af : Bool) (base ctx R : Int) : ∀ (moves : List Move) (st : Seek.State),
    Seek.room ctx st = R → Possible base R st.cur moves →
    run af base ctx st moves =
      stopFeeding base { st with cur := endsAt base st.cur moves, fields := st.fields ++ laid base st.cur moves } := by
  intro moves
  induction moves with
  | nil => intro st _ _; simp only [run, endsAt, laid, List.append_nil]
  | cons m l ih =>
    intro st hR h
    cases m with
    | raise e => exact absurd h (by simp [Possible])
    | seek a r =>
      obtain ⟨h1, h2⟩ := h
      rw [run]
      unfold moveTo
      have e : (if r then a else a - base) = meant base a r := rfl
      simp only [e]
      rw [if_neg (by omega)]
      simp only
      rw [ih { st with cur := meant base a r } hR h2]
      rfl
    | field size isSet =>
      obtain ⟨h1, h2, h3⟩ := h
      rw [run]
      unfold Seek.addField
      simp only
      rw [hR, if_neg (by
        rintro (hh | ⟨hh, h0⟩)
        · omega
        · have := h2 hh; omega)]
      simp only
      rw [ih { st with cur := st.cur + size, fields := st.fields ++ [(st.cur, (size : Int))] } hR h3]
      simp only [laid, endsAt, List.append_assoc, List.singleton_append]

theorem laid_possible (base R : Int) : ∀ (moves : List Move) (pos : Int), 0 ≤ pos → Possible base R pos moves →
    ∀ f ∈ laid base pos moves, 0 ≤ f.1 ∧ 0 ≤ f.2 ∧ f.1 + f.2 ≤ R := by
  intro moves
  induction moves with
  | nil => intro pos _ _ f hf; simp [laid] at hf
  | cons m l ih =>
    intro pos hp h f hf
    cases m with
    | raise e => simp [laid] at hf
    | seek a r => exact ih _ h.1 h.2 f hf
    | field size isSet =>
      obtain ⟨h1, h2, h3⟩ := h
      rw [laid] at hf
      rcases List.mem_cons.1 hf with rfl | hf
      · simp only; omega
      · exact ih _ (by omega) h3 f hf

theorem maxEnd_total : ∀ (l : List (Int × Int)) (b : Int), l ≠ [] → (∀ x ∈ l, x.1 + x.2 ≤ b) →
    ∃ m, Gaps.maxEnd l = .ok m ∧ m ≤ b ∧ ∃ x ∈ l, m = x.1 + x.2 := by
  intro l
  induction l with
  | nil => intro b h; exact absurd rfl h
  | cons x l ih =>
    intro b _ hb
    cases l with
    | nil => exact ⟨_, rfl, hb x (by simp), x, by simp, rfl⟩
    | cons y l =>
      obtain ⟨m, h1, h2, z, hz, h3⟩ := ih b (by simp) (fun q hq => hb q (List.mem_cons_of_mem _ hq))
      unfold Gaps.maxEnd
      rw [h1]
      have := hb x (by simp)
      refine ⟨_, rfl, by omega, ?_⟩
      by_cases hc : x.1 + x.2 ≤ m
      · exact ⟨z, List.mem_cons_of_mem _ hz, by omega⟩
      · exact ⟨x, by simp, by omega⟩

theorem deleteTooBig_small (size : Int) (l : List (Int × Int)) (cur : Int) (h : cur ≤ size) :
    Gaps.deleteTooBig size l cur = .ok (l, cur) := by
  unfold Gaps.deleteTooBig
  rw [if_neg (by omega)]

/-- What a finished seekable field set looks like: the fields of the parser and the added ones
cover it, the added ones lie beside the fields of the parser and beside each other. -/
def Covered (kept added : List (Int × Int)) (size : Int) : Prop :=
  (∀ x, 0 ≤ x → x < size → (∃ f ∈ kept, Inside x f) ∨ ∃ f ∈ added, Inside x f) ∧
  (∀ f ∈ added, 0 < f.2 ∧ 0 ≤ f.1 ∧ f.1 + f.2 ≤ size ∧ ∀ x, Inside x f → ∀ f' ∈ kept, ¬ Inside x f') ∧
  added.Pairwise (fun g g' => g.1 + g.2 ≤ g'.1)

theorem fixLastField_small (base size cur : Int) (fields : List (Int × Int)) (hc : cur ≤ size) (hne : fields ≠ [])
    (hf : ∀ f ∈ fields, 0 ≤ f.2 ∧ f.1 + f.2 ≤ R) :
    ∃ added size', Gaps.fixLastField base size cur fields = .ok (fields, added, size') ∧ Covered fields added size' ∧
      size ≤ size' ∧ (R ≤ size → size' = size) ∧ (size' = size ∨ ∃ f ∈ fields, size' = f.1 + f.2) ∧
      ∀ f ∈ fields, f.1 + f.2 ≤ size' := by
  have hd := deleteTooBig_small size fields.reverse cur hc
  obtain ⟨m, h1, h2, x, hx, h3⟩ := maxEnd_total (fields.map (fun f => (base + f.1, f.2))) (base + R) (by simpa using hne) (by
    intro x hx
    obtain ⟨f, hf1, rfl⟩ := List.mem_map.1 hx
    have := (hf f hf1).2
    simp only
    omega)
  have hmax := maxEnd_ok h1
  have e : Gaps.fixLastField base size cur fields = .ok (fields,
      (Gaps.getgaps base (max size (m - base)) (fields.map (fun f => (base + f.1, f.2)))).map (fun g => (g.1 - base, g.2)),
      max size (m - base)) := by
    unfold Gaps.fixLastField
    rw [hd]
    simp only [List.reverse_reverse]
    rw [h1]
  obtain ⟨c1, c2, c3, c4⟩ := C26_seekable_covered base size cur fields _ _ _ (fun f hf1 => (hf f hf1).1) e
  refine ⟨_, _, e, ⟨c2, c3, c4⟩, c1, ?_, ?_, ?_⟩
  · intro hR; omega
  · obtain ⟨f, hf1, rfl⟩ := List.mem_map.1 hx
    simp only at h3
    by_cases hc : m - base ≤ size
    · left; omega
    · right; exact ⟨f, hf1, by omega⟩
  · intro f hf1
    have := hmax _ (List.mem_map_of_mem hf1)
    simp only at this
    omega

/-- C76.  A seekable field set of known size whose generator moves and yields fields inside it, in
any order, also over each other, has in the end all these fields where they were yielded, its size
and no hole. -/
theorem C76_kept (af : Bool) (base ctx z : Int) (moves : List Move) (h : Possible base z 0 moves)
    (hne : laid base 0 moves ≠ []) (hend : endsAt base 0 moves ≤ z) :
    ∃ added, run af base ctx (start (some z)) moves = .ok (laid base 0 moves, added, z) ∧
      Covered (laid base 0 moves) added z := by
  rw [run_possible af base ctx z moves (start (some z)) rfl h]
  simp only [start, Seek.stopFeeding, List.nil_append]
  obtain ⟨added, size', e1, e2, e3, e4, _⟩ := fixLastField_small (R := z) base z (endsAt base 0 moves) (laid base 0 moves) hend hne
    (fun f hf => (laid_possible base z moves 0 (by omega) h f hf).2)
  rw [e4 (by omega)] at e1 e2
  exact ⟨added, e1, e2⟩

/-- C76.  A seekable field set of unknown size becomes as large as its fields need and reaches at
least to the last position. -/
theorem C76_grown (af : Bool) (base ctx : Int) (moves : List Move) (h : Possible base ctx 0 moves)
    (hne : laid base 0 moves ≠ []) :
    ∃ added size', run af base ctx (start none) moves = .ok (laid base 0 moves, added, size') ∧
      Covered (laid base 0 moves) added size' ∧ endsAt base 0 moves ≤ size' ∧
      (∀ f ∈ laid base 0 moves, f.1 + f.2 ≤ size') ∧
      (size' = endsAt base 0 moves ∨ ∃ f ∈ laid base 0 moves, size' = f.1 + f.2) := by
  rw [run_possible af base ctx ctx moves (start none) rfl h]
  simp only [start, Seek.stopFeeding, List.nil_append]
  obtain ⟨added, size', e1, e2, e3, _, e5, e6⟩ := fixLastField_small (R := ctx) base (endsAt base 0 moves)
    (endsAt base 0 moves) (laid base 0 moves) (by omega) hne
    (fun f hf => (laid_possible base ctx moves 0 (by omega) h f hf).2)
  exact ⟨added, size', e1, e2, e3, e6, e5⟩

/-- The moves of a parser of an executable: header, table at the end of the file, two sections
named by the table, which overlap. -/
def program : List Move :=
  [.field 416 true, .seek 1000 true, .field 320 true, .seek 500 true, .field 100 false, .seek 600 false, .field 50 true]

/-- Non-vacuity. -/
example : Possible 64 1400 0 program ∧ laid 64 0 program = [(0, 416), (1000, 320), (500, 100), (536, 50)] ∧
    run true 64 0 (start (some 1400)) program =
      .ok ([(0, 416), (1000, 320), (500, 100), (536, 50)], [(416, 84), (600, 400), (1320, 80)], 1400) ∧
    run true 64 1400 (start none) program =
      .ok ([(0, 416), (1000, 320), (500, 100), (536, 50)], [(416, 84), (600, 400)], 1320) :=
  ⟨by simp [program, Possible, meant], by decide, by decide +kernel, by decide +kernel⟩

/-! ### Any moves at all -/

/-- The fields lie in the room. -/
def Inner (R : Int) (st : Seek.State) : Prop :=
  0 ≤ st.cur ∧ ∀ f ∈ st.fields, 0 ≤ f.1 ∧ 0 ≤ f.2 ∧ f.1 + f.2 ≤ R

/-- How feeding ends: `_fixLastField` with some state, or an exception. -/
theorem run_ends (af : Bool) (base ctx R : Int) : ∀ (moves : List Move) (st : Seek.State),
    Seek.room ctx st = R → Inner R st → ∀ r, run af base ctx st moves = .ok r →
    ∃ z st', Inner R st' ∧ Gaps.fixLastField base z st'.cur st'.fields = .ok r ∧ (z = R ∨ st.size = none) := by
  have hstop : ∀ (st : Seek.State), Seek.room ctx st = R → Inner R st → ∀ r, Seek.stopFeeding base st = .ok r →
      ∃ z st', Inner R st' ∧ Gaps.fixLastField base z st'.cur st'.fields = .ok r ∧ (z = R ∨ st.size = none) := by
    intro st hR hI r h
    unfold Seek.stopFeeding at h
    cases hs : st.size with
    | none => rw [hs] at h; exact ⟨_, st, hI, h, .inr rfl⟩
    | some z =>
      rw [hs] at h
      unfold Seek.room at hR
      rw [hs] at hR
      exact ⟨z, st, hI, h, .inl hR⟩
  have hfix : ∀ (st : Seek.State) (e : PyErr), Seek.room ctx st = R → Inner R st → ∀ r,
      Seek.fixFeedError af base st e = .ok r →
      ∃ z st', Inner R st' ∧ Gaps.fixLastField base z st'.cur st'.fields = .ok r ∧ (z = R ∨ st.size = none) := by
    intro st e hR hI r h
    unfold Seek.fixFeedError at h
    cases hs : st.size with
    | none => rw [hs] at h; cases h
    | some z =>
      rw [hs] at h
      simp only at h
      unfold Seek.room at hR
      rw [hs] at hR
      split at h
      · exact ⟨z, st, hI, h, .inl hR⟩
      · cases h
  intro moves
  induction moves with
  | nil => intro st hR hI r h; exact hstop st hR hI r h
  | cons m l ih =>
    intro st hR hI r h
    cases m with
    | raise e => exact hfix st e hR hI r h
    | seek a rel =>
      rw [run] at h
      unfold moveTo at h
      simp only at h
      by_cases h0 : (if rel then a else a - base) < 0
      · rw [if_pos h0] at h
        exact hfix st _ hR hI r h
      · rw [if_neg h0] at h
        exact ih { st with cur := if rel then a else a - base } hR ⟨by simp only; omega, hI.2⟩ r h
    | field size isSet =>
      rw [run] at h
      unfold Seek.addField at h
      simp only at h
      rw [hR] at h
      by_cases h1 : R - (st.cur + size) < 0 ∨ (isSet = true ∧ (size : Int) ≤ 0)
      · rw [if_pos h1] at h
        by_cases h2 : af = true ∧ st.cur ≠ 0
        · rw [if_pos h2] at h
          by_cases h3 : 0 < (size : Int) + (R - (st.cur + size))
          · rw [if_pos h3] at h
            by_cases h4 : isSet = true ∧ (0 : Int) < size
            · rw [if_pos h4] at h
              refine ih ⟨st.size, st.cur + (size + (R - (st.cur + size))),
                st.fields ++ [(st.cur, (size : Int) + (R - (st.cur + size)))]⟩ hR ⟨?_, ?_⟩ r h
              · have := hI.1; simp only; omega
              · intro f hf
                rcases List.mem_append.1 hf with hf | hf
                · exact hI.2 f hf
                · have := hI.1
                  rw [List.mem_singleton] at hf
                  subst hf
                  simp only
                  omega
            · rw [if_neg h4] at h
              simp only at h
              have hR' : Seek.room ctx { st with size := some (st.size.getD (st.cur + (size + (R - (st.cur + size))))) } = R := by
                unfold Seek.room at hR ⊢
                cases hs : st.size with
                | none => simp only [Option.getD_none]; omega
                | some z => rw [hs] at hR; simpa using hR
              obtain ⟨z, st', e1, e2, e3⟩ := hstop _ hR' hI r h
              refine ⟨z, st', e1, e2, .inl ?_⟩
              rcases e3 with e3 | e3
              · exact e3
              · cases e3
          · rw [if_neg h3] at h
            exact hstop _ hR hI r h
        · rw [if_neg h2] at h
          exact hfix st _ hR hI r h
      · rw [if_neg h1] at h
        refine ih { st with cur := st.cur + size, fields := st.fields ++ [(st.cur, (size : Int))] } hR ⟨?_, ?_⟩ r h
        · have := hI.1; simp only; omega
        · intro f hf
          rcases List.mem_append.1 hf with hf | hf
          · exact hI.2 f hf
          · have := hI.1
            rw [List.mem_singleton] at hf
            subst hf
            simp only
            omega

theorem deleteTooBig_suffix (size : Int) : ∀ (l : List (Int × Int)) (cur : Int) (k : List (Int × Int)) (c : Int),
    Gaps.deleteTooBig size l cur = .ok (k, c) → k <:+ l := by
  intro l
  induction l with
  | nil =>
    intro cur k c h
    unfold Gaps.deleteTooBig at h
    split at h
    · cases h
    · cases h; exact List.suffix_refl _
  | cons b rest ih =>
    intro cur k c h
    unfold Gaps.deleteTooBig at h
    split at h
    · exact (ih _ _ _ h).trans (List.suffix_cons _ _)
    · cases h; exact List.suffix_refl _

theorem fixLastField_kept (base size cur : Int) (fields kept added : List (Int × Int)) (size' : Int)
    (h : Gaps.fixLastField base size cur fields = .ok (kept, added, size')) :
    kept <+: fields ∧ ∃ m, Gaps.maxEnd (kept.map (fun f => (base + f.1, f.2))) = .ok m ∧ size' = max size (m - base) := by
  unfold Gaps.fixLastField at h
  split at h
  · cases h
  · rename_i k c hd
    simp only at h
    split at h
    · cases h
    · rename_i m hm
      cases h
      refine ⟨?_, m, hm, rfl⟩
      have := deleteTooBig_suffix size _ _ _ _ hd
      have h2 := List.reverse_prefix.2 this
      rwa [List.reverse_reverse] at h2

/-- C76, for any moves, with exceptions, fields that do not fit and seeks to anywhere: if reading
the field set ends without an exception, no bit of it is outside all fields, the added fields lie
beside the others, and all lie inside; and a known size stays as it is. -/
theorem C76_covered (af : Bool) (base ctx : Int) (size : Option Int) (moves : List Move)
    (kept added : List (Int × Int)) (size' : Int)
    (h : run af base ctx (start size) moves = .ok (kept, added, size')) :
    Covered kept added size' ∧ (∀ f ∈ kept, 0 ≤ f.1 ∧ 0 ≤ f.2 ∧ f.1 + f.2 ≤ size' ∧ f.1 + f.2 ≤ size.getD ctx) ∧
    ∀ z, size = some z → size' = z := by
  have hR : Seek.room ctx (start size) = size.getD ctx := by
    unfold Seek.room start
    cases size <;> rfl
  obtain ⟨z, st', hI, e, hz⟩ := run_ends af base ctx (size.getD ctx) moves (start size) hR
    ⟨by simp [start], by simp [start]⟩ _ h
  obtain ⟨c1, c2, c3, c4⟩ := C26_seekable_covered base z st'.cur st'.fields kept added size' (fun f hf => (hI.2 f hf).2.1) e
  obtain ⟨hp, m, hm, hs⟩ := fixLastField_kept base z st'.cur st'.fields kept added size' e
  have hk : ∀ f ∈ kept, 0 ≤ f.1 ∧ 0 ≤ f.2 ∧ f.1 + f.2 ≤ size.getD ctx := fun f hf => hI.2 f (hp.subset hf)
  have hne : kept ≠ [] := by
    rintro rfl
    cases hm
  obtain ⟨m', hm', hle, x, hx, hxm⟩ := maxEnd_total (kept.map (fun f => (base + f.1, f.2))) (base + size.getD ctx)
    (by simpa using hne) (by
      intro x hx
      obtain ⟨f, hf1, rfl⟩ := List.mem_map.1 hx
      have := (hk f hf1).2.2
      simp only
      omega)
  have hmm : m' = m := by rw [hm] at hm'; cases hm'; rfl
  refine ⟨⟨c2, c3, c4⟩, ?_, ?_⟩
  · intro f hf
    have := hk f hf
    have h3 := maxEnd_ok hm _ (List.mem_map_of_mem hf)
    simp only at h3
    refine ⟨this.1, this.2.1, by omega, this.2.2⟩
  · rintro w rfl
    rcases hz with hz | hz
    · simp only [Option.getD_some] at *
      omega
    · cases hz

/-- The sizes of all fields together. -/
def allBits (l : List (Int × Int)) : Int := (l.map fun f => f.2).sum

theorem allBits_nonneg : ∀ (l : List (Int × Int)), (∀ f ∈ l, 0 ≤ f.2) → 0 ≤ allBits l := by
  intro l
  induction l with
  | nil => intro _; simp [allBits]
  | cons b rest ih =>
    intro h
    have h1 : allBits (b :: rest) = b.2 + allBits rest := by simp [allBits]
    have := ih (fun f hf => h f (List.mem_cons_of_mem _ hf))
    have := h b (by simp)
    omega

theorem deleteTooBig_all (size : Int) : ∀ (l : List (Int × Int)) (cur : Int), (∀ f ∈ l, 0 ≤ f.2) →
    size < cur - allBits l → Gaps.deleteTooBig size l cur = .error .index := by
  intro l
  induction l with
  | nil =>
    intro cur _ h
    unfold Gaps.deleteTooBig
    rw [if_pos (by simpa [allBits] using h)]
  | cons b rest ih =>
    intro cur hl h
    have h1 : allBits (b :: rest) = b.2 + allBits rest := by simp [allBits]
    have h2 := allBits_nonneg rest (fun f hf => hl f (List.mem_cons_of_mem _ hf))
    have h3 := hl b (by simp)
    unfold Gaps.deleteTooBig
    rw [if_pos (by omega)]
    exact ih _ (fun f hf => hl f (List.mem_cons_of_mem _ hf)) (by omega)

theorem run_append (af : Bool) (base ctx R : Int) (moves rest : List Move) : ∀ (st : Seek.State),
    Seek.room ctx st = R → Possible base R st.cur moves →
    run af base ctx st (moves ++ rest) =
      run af base ctx { st with cur := endsAt base st.cur moves, fields := st.fields ++ laid base st.cur moves } rest := by
  induction moves with
  | nil => intro st _ _; simp only [endsAt, laid, List.append_nil, List.nil_append]
  | cons m l ih =>
    intro st hR h
    cases m with
    | raise e => exact absurd h (by simp [Possible])
    | seek a r =>
      obtain ⟨h1, h2⟩ := h
      rw [List.cons_append, run]
      unfold moveTo
      have e : (if r then a else a - base) = meant base a r := rfl
      simp only [e]
      rw [if_neg (by omega)]
      simp only
      rw [ih { st with cur := meant base a r } hR h2]
      rfl
    | field size isSet =>
      obtain ⟨h1, h2, h3⟩ := h
      rw [List.cons_append, run]
      unfold Seek.addField
      simp only
      rw [hR, if_neg (by
        rintro (hh | ⟨hh, h0⟩)
        · omega
        · have := h2 hh; omega)]
      simp only
      rw [ih { st with cur := st.cur + size, fields := st.fields ++ [(st.cur, (size : Int))] } hR h3]
      simp only [laid, endsAt, List.append_assoc, List.singleton_append]

/-- C76 as a user would expect it is false: a field that lies behind the end of the field set by
more than the fields before it are large (a wrong offset in a file) is not only left out; all the
fields that were read before are deleted one by one, and reading ends with an IndexError. -/
theorem C76_far (base ctx z : Int) (moves : List Move) (h : Possible base z 0 moves) (address : Int) (size : Nat)
    (isSet : Bool) (hfar : z + allBits (laid base 0 moves) < address) (hz : 0 ≤ z) :
    run true base ctx (start (some z)) (moves ++ [.seek address true, .field size isSet]) = .error .index := by
  rw [run_append true base ctx z moves _ (start (some z)) rfl h]
  have hin := laid_possible base z moves 0 (by omega) h
  have h2 := allBits_nonneg (laid base 0 moves) (fun f hf => (hin f hf).2.1)
  simp only [start, List.nil_append]
  have hmove : ∀ st : Seek.State, moveTo base st address true = .ok { st with cur := address } := by
    intro st
    unfold moveTo
    simp only [if_true]
    rw [if_neg (by omega)]
  rw [run, hmove]
  simp only
  have hadd : ∀ F, Seek.addField true ctx ⟨some z, address, F⟩ (size : Int) isSet = .stop ⟨some z, address, F⟩ := by
    intro F
    unfold Seek.addField
    have hr : Seek.room ctx ⟨some z, address, F⟩ = z := rfl
    simp only
    rw [hr, if_pos (Or.inl (by omega)), if_pos (And.intro trivial (by omega)),
      if_neg (show ¬ 0 < (size : Int) + (z - (address + size)) by omega)]
  rw [run, hadd]
  simp only [Seek.stopFeeding]
  unfold Gaps.fixLastField
  rw [deleteTooBig_all z (laid base 0 moves).reverse _ (fun f hf => (hin f (List.mem_reverse.1 hf)).2.1) (by
    have : allBits (laid base 0 moves).reverse = allBits (laid base 0 moves) := by
      simp [allBits, List.sum_reverse]
    omega)]

/-- C76, the other half: a field behind the end costs the fields before it. -/
theorem C76_lost : ∃ moves : List Move, Possible 0 1000 0 moves ∧ laid 0 0 moves = [(0, 416), (500, 100), (600, 100)] ∧
    run true 0 0 (start (some 1000)) moves = .ok ([(0, 416), (500, 100), (600, 100)], [(416, 84), (700, 300)], 1000) ∧
    run true 0 0 (start (some 1000)) (moves ++ [.seek 1050 true, .field 8 false]) =
      .ok ([(0, 416), (500, 100)], [(416, 84), (600, 400)], 1000) ∧
    run true 0 0 (start (some 1000)) (moves ++ [.seek 1700 true, .field 8 false]) = .error .index :=
  ⟨[.field 416 true, .seek 500 true, .field 100 false, .field 100 false], by simp [Possible, meant], by decide,
    by decide +kernel, by decide +kernel, by decide +kernel⟩

end Hachoir.Props
