import Verif.Regex.Heap
import Verif.Regex.Size

/-! Lemmas on `&` with shared objects. -/

namespace Hachoir.Regex

set_option linter.unusedVariables false
set_option linter.unusedSimpArgs false

mutual
theorem Den.frame {h h' : Heap} {P P' : Nat → Prop} {a : Nat} {r : Rx} (d : Den h P a r)
    (hk : ∀ x, P x → h'[x]? = h[x]?) (hp : ∀ x, P x → P' x) : Den h' P' a r := by
  cases d with
  | atom g ga gp => exact .atom (by rw [hk _ gp, g]) ga (hp _ gp)
  | and g gp gs => exact .and (by rw [hk _ gp, g]) (hp _ gp) (gs.frame hk hp)
  | or g gp gs => exact .or (by rw [hk _ gp, g]) (hp _ gp) (gs.frame hk hp)
  | rep g gp gs => exact .rep (by rw [hk _ gp, g]) (hp _ gp) (gs.frame hk hp)
theorem Dens.frame {h h' : Heap} {P P' : Nat → Prop} {l : List Nat} {rs : List Rx}
    (d : Dens h P l rs)
    (hk : ∀ x, P x → h'[x]? = h[x]?) (hp : ∀ x, P x → P' x) : Dens h' P' l rs := by
  cases d with
  | nil => exact .nil
  | cons g gs => exact .cons (g.frame hk hp) (gs.frame hk hp)
end

theorem Own.frame {h h' : Heap} {P P' : Nat → Prop} {S : List Nat} {a : Nat} {r : Rx}
    (d : Own h P S a r) (hk : ∀ x, P x → h'[x]? = h[x]?) (hs : ∀ x ∈ S, h'[x]? = h[x]?)
    (hp : ∀ x, P x → P' x) : Own h' P' S a r := by
  induction d with
  | other g gn => exact .other (g.frame hk hp) gn
  | and g gl gc ih =>
    exact .and (by rw [hs _ (by simp), g]) (gl.frame hk hp) (ih (fun x hx => hs x (by simp [hx])))

theorem Dens.append {h : Heap} {P : Nat → Prop} {l m : List Nat} {rs ss : List Rx}
    (d : Dens h P l rs) (e : Dens h P m ss) : Dens h P (l ++ m) (rs ++ ss) := by
  match l, rs, d with
  | [], [], .nil => exact e
  | _ :: _, _ :: _, .cons g gs => exact .cons g (gs.append e)

theorem Den.cell {h : Heap} {P : Nat → Prop} {a : Nat} {r : Rx} (d : Den h P a r) :
    P a ∧ ∃ nd, h[a]? = some nd ∧
      ((∃ l, nd = .and l) ↔ notAnd r = false) ∧ (nd = .atom .empty ↔ r = .empty) := by
  cases d with
  | atom g ga gp =>
    refine ⟨gp, _, g, ?_, ?_⟩
    · cases r <;> simp_all [isAtom, notAnd]
    · simp
  | and g gp gs => exact ⟨gp, _, g, by simp [notAnd], by simp⟩
  | or g gp gs => exact ⟨gp, _, g, by simp [notAnd], by simp⟩
  | rep g gp gs => exact ⟨gp, _, g, by simp [notAnd], by simp⟩

theorem lt_of_get {h : Heap} {a : Nat} {nd : Node} (g : h[a]? = some nd) : a < h.length := by
  rw [List.getElem?_eq_some_iff] at g
  exact g.1

theorem get_append {h : Heap} {x : Nat} (hx : x < h.length) (t : Heap) :
    (h ++ t)[x]? = h[x]? := List.getElem?_append_left hx

theorem andLast_append (rs : List Rx) (x b : Rx) :
    andLast (rs ++ [x]) b = (andStep x b).map (fun y => rs ++ [y]) := by
  induction rs with
  | nil => simp only [List.nil_append, andLast]; cases andStep x b <;> rfl
  | cons y rs ih =>
    cases rs with
    | nil =>
      simp only [List.nil_append, List.cons_append] at ih ⊢
      rw [andLast, ih]; cases andStep x b <;> rfl
    | cons z rs =>
      simp only [List.cons_append] at ih ⊢
      rw [andLast, ih]; cases andStep x b <;> rfl

/-- What an operation may do. -/
structure Step (h h' : Heap) (P : Nat → Prop) (S : List Nat) (P' : Nat → Prop) (S' : List Nat) :
    Prop where
  apart : Apart h' P' S'
  ext : h.length ≤ h'.length
  keep : ∀ x, x < h.length → x ∉ S → h'[x]? = h[x]?
  sub : ∀ x, P x → P' x
  new : ∀ x, P' x → P x ∨ h.length ≤ x
  spine : ∀ x ∈ S', x ∈ S ∨ h.length ≤ x
  len : S'.length = S.length

theorem Step.refl {h P S} (ap : Apart h P S) : Step h h P S P S where
  apart := ap
  ext := Nat.le_refl _
  keep := fun _ _ _ => rfl
  sub := fun _ => id
  new := fun _ => Or.inl
  spine := fun _ => Or.inl
  len := rfl

theorem Step.trans {h h1 h2 P S P1 S1 P2 S2} (s : Step h h1 P S P1 S1)
    (t : Step h1 h2 P1 S1 P2 S2) : Step h h2 P S P2 S2 where
  apart := t.apart
  ext := Nat.le_trans s.ext t.ext
  keep := by
    intro x hx hn
    rw [t.keep x (Nat.lt_of_lt_of_le hx s.ext), s.keep x hx hn]
    intro h1
    rcases s.spine x h1 with h | h
    · exact hn h
    · omega
  sub := fun x hx => t.sub x (s.sub x hx)
  new := by
    intro x hx
    rcases t.new x hx with h | h
    · exact s.new x h
    · exact Or.inr (Nat.le_trans s.ext h)
  spine := by
    intro x hx
    rcases t.spine x hx with h | h
    · exact s.spine x h
    · exact Or.inr (Nat.le_trans s.ext h)
  len := t.len.trans s.len

/-- Objects that satisfy `P` are not changed. -/
theorem Step.keepP {h h' P S P' S'} (s : Step h h' P S P' S') (ap : Apart h P S) (x : Nat)
    (hx : P x) : h'[x]? = h[x]? :=
  s.keep x (ap.inP x hx) (fun hs => ap.disj x hs hx)

/-- `_and` with an argument that is not a `RegexAnd`. -/
theorem andM_spec {h : Heap} {P : Nat → Prop} {S : List Nat} {a b : Nat} {ra rb : Rx}
    (oa : Own h P S a ra) (db : Den h P b rb) (hb : notAnd rb = true) (ap : Apart h P S)
    (n : Nat) (hn : S.length < n) :
    (andM n h a b = some (h, none) ∧ andStep ra rb = none ∧ S = []) ∨
    ∃ h' d r P' S', andM n h a b = some (h', some d) ∧ andStep ra rb = some r ∧
      Own h' P' S' d r ∧ Step h h' P S P' S' := by
  induction oa generalizing n with
  | @other a r da ga =>
    obtain ⟨n, rfl⟩ : ∃ m, n = m + 1 := ⟨n - 1, by omega⟩
    obtain ⟨hpb, nd, hnb, hb1, hb2⟩ := db.cell
    have same : ∀ {x rx}, Own h P [] x rx →
        ∃ P' S', Own h P' S' x rx ∧ Step h h P [] P' S' :=
      fun o => ⟨P, [], o, Step.refl ap⟩
    cases da with
    | atom g gat gp =>
      cases r with
      | empty =>
        right
        obtain ⟨P', S', h1, h2⟩ := same (.other db hb)
        exact ⟨h, b, rb, P', S', by simp only [andM, g, hnb], by simp only [andStep], h1, h2⟩
      | word =>
        by_cases hw : rb = .word
        · subst hw
          right
          have hnd : nd = .atom .word := by
            cases db with | atom g' _ _ => rw [g'] at hnb; exact (Option.some.inj hnb).symm
          subst hnd
          obtain ⟨P', S', h1, h2⟩ := same (.other (.atom g gat gp) ga)
          exact ⟨h, a, .word, P', S', by simp only [andM, g, hnb], by simp only [andStep], h1, h2⟩
        · left
          refine ⟨?_, by cases rb <;> simp_all [andStep], rfl⟩
          cases db with
          | atom g' ga' _ =>
            cases rb <;> first
              | exact absurd rfl hw
              | exact (hw ⟨_, rfl⟩).elim
              | simp only [andM, g, g']
              | simp [isAtom] at ga'
          | and g' _ _ => simp [notAnd] at hb
          | or g' _ _ => simp only [andM, g, g']
          | rep g' _ _ => simp only [andM, g, g']
      | start =>
        by_cases hw : rb = .start
        · subst hw
          right
          have hnd : nd = .atom .start := by
            cases db with | atom g' _ _ => rw [g'] at hnb; exact (Option.some.inj hnb).symm
          subst hnd
          obtain ⟨P', S', h1, h2⟩ := same (.other (.atom g gat gp) ga)
          exact ⟨h, a, .start, P', S', by simp only [andM, g, hnb], by simp only [andStep], h1, h2⟩
        · left
          refine ⟨?_, by cases rb <;> simp_all [andStep], rfl⟩
          cases db with
          | atom g' ga' _ =>
            cases rb <;> first
              | exact absurd rfl hw
              | exact (hw ⟨_, rfl⟩).elim
              | simp only [andM, g, g']
              | simp [isAtom] at ga'
          | and g' _ _ => simp [notAnd] at hb
          | or g' _ _ => simp only [andM, g, g']
          | rep g' _ _ => simp only [andM, g, g']
      | stop =>
        by_cases hw : rb = .stop
        · subst hw
          right
          have hnd : nd = .atom .stop := by
            cases db with | atom g' _ _ => rw [g'] at hnb; exact (Option.some.inj hnb).symm
          subst hnd
          obtain ⟨P', S', h1, h2⟩ := same (.other (.atom g gat gp) ga)
          exact ⟨h, a, .stop, P', S', by simp only [andM, g, hnb], by simp only [andStep], h1, h2⟩
        · left
          refine ⟨?_, by cases rb <;> simp_all [andStep], rfl⟩
          cases db with
          | atom g' ga' _ =>
            cases rb <;> first
              | exact absurd rfl hw
              | exact (hw ⟨_, rfl⟩).elim
              | simp only [andM, g, g']
              | simp [isAtom] at ga'
          | and g' _ _ => simp [notAnd] at hb
          | or g' _ _ => simp only [andM, g, g']
          | rep g' _ _ => simp only [andM, g, g']
      | dot =>
        left
        refine ⟨by simp only [andM, g, hnb], by cases rb <;> simp_all [andStep], rfl⟩
      | range rs e =>
        left
        refine ⟨by simp only [andM, g, hnb], by cases rb <;> simp_all [andStep], rfl⟩
      | str s =>
        by_cases hw : ∃ t, rb = .str t
        · obtain ⟨t, rfl⟩ := hw
          right
          have hnd : nd = .atom (.str t) := by
            cases db with | atom g' _ _ => rw [g'] at hnb; exact (Option.some.inj hnb).symm
          subst hnd
          refine ⟨h ++ [.atom (.str (s ++ t))], h.length, .str (s ++ t),
            fun x => P x ∨ x = h.length, [], by simp only [andM, g, hnb],
            by simp only [andStep], .other (.atom ?_ rfl (Or.inr rfl)) rfl, ?_⟩
          · simp
          · exact {
              apart := ⟨by rintro x (hx | rfl)
                           · have := ap.inP x hx
                             simp only [List.length_append, List.length_singleton]; omega
                           · simp, by simp, by simp, by simp⟩
              ext := by simp
              keep := fun x hx _ => get_append hx _
              sub := fun x => Or.inl
              new := by
                rintro x (hx | rfl)
                · exact Or.inl hx
                · exact Or.inr (Nat.le_refl _)
              spine := by simp
              len := rfl }
        · left
          refine ⟨?_, by cases rb <;> simp_all [andStep], rfl⟩
          cases db with
          | atom g' ga' _ =>
            cases rb <;> first
              | exact absurd rfl hw
              | exact (hw ⟨_, rfl⟩).elim
              | simp only [andM, g, g']
              | simp [isAtom] at ga'
          | and g' _ _ => simp [notAnd] at hb
          | or g' _ _ => simp only [andM, g, g']
          | rep g' _ _ => simp only [andM, g, g']
      | and l => simp [isAtom] at gat
      | or l => simp [isAtom] at gat
      | rep r m mx => simp [isAtom] at gat
    | and g gp gs => simp [notAnd] at ga
    | or g gp gs =>
      left
      refine ⟨by simp only [andM, g, hnb], by cases rb <;> simp_all [andStep], rfl⟩
    | rep g gp gs =>
      left
      refine ⟨by simp only [andM, g, hnb], by cases rb <;> simp_all [andStep], rfl⟩
  | @and a l c rs r S g gl gc ih =>
    right
    obtain ⟨n, rfl⟩ : ∃ m, n = m + 1 := ⟨n - 1, by omega⟩
    simp only [List.length_cons] at hn
    obtain ⟨hpb, nd, hnb, hb1, hb2⟩ := db.cell
    have apS : Apart h P S :=
      ⟨ap.inP, fun x hx => ap.inS x (by simp [hx]), fun x hx => ap.disj x (by simp [hx]),
        (List.nodup_cons.1 ap.nodup).2⟩
    have haS : a ∉ S := (List.nodup_cons.1 ap.nodup).1
    have haP : ¬ P a := ap.disj a (by simp)
    have hal : a < h.length := lt_of_get g
    have unf : andM (n + 1) h a b = match andM n h c b with
        | none => none
        | some (h', some d) => some (setLast h' a d, some a)
        | some (h', none) => some (newAnd h' a b, some h'.length) := by
      have hna : ∀ m, nd ≠ .and m := by
        rintro m rfl
        rw [hb1.1 ⟨m, rfl⟩] at hb; cases hb
      rw [andM]
      simp only [g, hnb]
      cases nd with
      | and m => exact absurd rfl (hna m)
      | atom _ => simp only [List.getLast?_append, List.getLast?_singleton, Option.some_or]; rfl
      | or _ => simp only [List.getLast?_append, List.getLast?_singleton, Option.some_or]; rfl
      | rep _ _ _ => simp only [List.getLast?_append, List.getLast?_singleton, Option.some_or]; rfl
    have step : ∀ o, andStep (.and (rs ++ [r])) rb = o →
        (match andStep r rb with
          | some y => some (Rx.and (rs ++ [y]))
          | none => some (Rx.and (rs ++ [r] ++ [rb]))) = o := by
      intro o ho
      rw [← ho]
      simp only [andStep, andLast_append]
      cases andStep r rb <;> rfl
    rcases ih apS n (by omega) with ⟨h1, h2, rfl⟩ | ⟨h', d, r', P', S', h1, h2, h3, h4⟩
    · simp only [h1] at unf
      have hnew : newAnd h a b = h ++ [.and (l ++ [c] ++ [b])] := by
        simp only [newAnd, g]
      rw [hnew] at unf
      have hkeep : ∀ x, x < h.length → (h ++ [Node.and (l ++ [c] ++ [b])])[x]? = h[x]? :=
        fun x hx => get_append hx _
      have kP : ∀ x, P x → (h ++ [Node.and (l ++ [c] ++ [b])])[x]? = h[x]? :=
        fun x hx => hkeep x (ap.inP x hx)
      have dc : Den h P c r := by cases gc with | other d _ => exact d
      refine ⟨_, _, .and (rs ++ [r] ++ [rb]), P, [h.length], unf, ?_, ?_, ?_⟩
      · rw [← step _ rfl, h2]
      · exact .and (l := l ++ [c]) (by simp)
          ((gl.append (.cons dc .nil)).frame kP fun _ => id)
          (.other (db.frame kP fun _ => id) hb)
      · exact {
          apart := ⟨fun x hx => by
              have := ap.inP x hx
              simp only [List.length_append, List.length_singleton]; omega,
            by simp, by
              intro x hx hp
              simp only [List.mem_singleton] at hx
              have := ap.inP x hp
              omega, by simp⟩
          ext := by simp
          keep := fun x hx _ => hkeep x hx
          sub := fun x => id
          new := fun x => Or.inl
          spine := by intro x hx; simp only [List.mem_singleton] at hx; exact Or.inr (by omega)
          len := rfl }
    · simp only [h1] at unf
      have ga' : h'[a]? = some (.and (l ++ [c])) := by rw [h4.keep a hal haS, g]
      have hset : setLast h' a d = h'.set a (.and (l ++ [d])) := by
        simp only [setLast, ga', List.dropLast_concat]
      rw [hset] at unf
      have haP' : ¬ P' a := by
        intro hp
        rcases h4.new a hp with h | h
        · exact haP h
        · omega
      have haS' : a ∉ S' := by
        intro hp
        rcases h4.spine a hp with h | h
        · exact haS h
        · omega
      have hother : ∀ x, x ≠ a → (h'.set a (.and (l ++ [d])))[x]? = h'[x]? := by
        intro x hx
        rw [List.getElem?_set]
        rw [if_neg (fun h => hx h.symm)]
      have kP' : ∀ x, P' x → (h'.set a (.and (l ++ [d])))[x]? = h'[x]? :=
        fun x hx => hother x (fun h => haP' (h ▸ hx))
      refine ⟨_, _, .and (rs ++ [r']), P', a :: S', unf, ?_, ?_, ?_⟩
      · rw [← step _ rfl, h2]
      · refine .and (l := l) (c := d) ?_ ?_ ?_
        · rw [List.getElem?_set]
          have : a < h'.length := Nat.lt_of_lt_of_le hal h4.ext
          simp [this]
        · exact gl.frame (fun x hx => by rw [kP' x (h4.sub x hx), h4.keepP apS x hx]) h4.sub
        · exact h3.frame kP' (fun x hx => hother x (fun h => haS' (h ▸ hx))) fun _ => id
      · exact {
          apart := ⟨fun x hx => by simpa using h4.apart.inP x hx,
            fun x hx => by
              rcases List.mem_cons.1 hx with rfl | hx
              · simpa using Nat.lt_of_lt_of_le hal h4.ext
              · simpa using h4.apart.inS x hx,
            fun x hx => by
              rcases List.mem_cons.1 hx with rfl | hx
              · exact haP'
              · exact h4.apart.disj x hx,
            List.nodup_cons.2 ⟨haS', h4.apart.nodup⟩⟩
          ext := by simpa using h4.ext
          keep := by
            intro x hx hn
            simp only [List.mem_cons, not_or] at hn
            rw [hother x hn.1, h4.keep x hx hn.2]
          sub := h4.sub
          new := h4.new
          spine := by
            intro x hx
            rcases List.mem_cons.1 hx with rfl | hx
            · exact Or.inl (by simp)
            · rcases h4.spine x hx with h | h
              · exact Or.inl (by simp [h])
              · exact Or.inr h
          len := by simp [h4.len] }

mutual
/-- Nesting depth of `RegexAnd` in `RegexAnd`. -/
def depth : Rx → Nat
  | .and l => depths l + 1
  | _ => 0
def depths : List Rx → Nat
  | [] => 0
  | r :: l => max (depth r) (depths l)
end

theorem Own.ne {h P S a r} (o : Own h P S a r) (hs : S ≠ []) : ∃ l, r = .and l := by
  cases o with
  | other _ _ => exact absurd rfl hs
  | and _ _ _ => exact ⟨_, rfl⟩

/-- What `addR` does, for a right operand of limited depth. -/
def AddSpec (f : Heap → Nat → Nat → Option (Heap × Nat)) (D K : Nat) : Prop :=
  ∀ (h : Heap) (P : Nat → Prop) (S : List Nat) (a b : Nat) (ra rb : Rx), S ≠ [] → S.length ≤ D →
    Own h P S a ra → Den h P b rb → Apart h P S → depth rb ≤ K →
    ∃ h' d P' S', f h a b = some (h', d) ∧ Own h' P' S' d (andOp ra rb) ∧ Step h h' P S P' S'

/-- `&` with a right operand that is not a `RegexAnd`. -/
theorem addFlat (D n : Nat) (hn : D + 2 ≤ n) (h : Heap) (P : Nat → Prop) (S : List Nat)
    (a b : Nat) (ra rb : Rx) (hS : S ≠ []) (hD : S.length ≤ D) (oa : Own h P S a ra)
    (db : Den h P b rb) (ap : Apart h P S) (hb : notAnd rb = true) :
    ∃ h' d P' S', addR n h a b = some (h', d) ∧ Own h' P' S' d (andOp ra rb) ∧
      Step h h' P S P' S' := by
  obtain ⟨n, rfl⟩ : ∃ m, n = m + 1 := ⟨n - 1, by omega⟩
  obtain ⟨hpb, nd, hnb, hb1, hb2⟩ := db.cell
  by_cases he : rb = .empty
  · have := hb2.2 he
    subst he this
    exact ⟨h, a, P, S, by simp only [addR, hnb], by simpa only [andOp] using oa, Step.refl ap⟩
  · have hne : nd ≠ .atom .empty := fun h => he (hb2.1 h)
    rcases andM_spec oa db hb ap n (by omega) with ⟨_, _, h0⟩ | ⟨h', d, r, P', S', e1, e2, o, s⟩
    · exact absurd h0 hS
    · have hand : andOp ra rb = r := by
        cases rb <;> simp_all [andOp, notAnd]
      refine ⟨h', d, P', S', ?_, by rw [hand]; exact o, s⟩
      rw [addR]
      simp only [hnb, e1]
      split
      · rename_i hh; exact absurd (Option.some.inj hh) hne
      · rfl

/-- The loop over the items of the right operand. -/
theorem loop_spec (f : Heap → Nat → Nat → Option (Heap × Nat)) (D K : Nat) (hf : AddSpec f D K)
    (m : List Nat) : ∀ (l : List Nat) (rs : List Rx) (h : Heap) (P : Nat → Prop) (S : List Nat)
      (a b : Nat) (ra : Rx), S ≠ [] → S.length ≤ D → Own h P S a ra → P b →
      h[b]? = some (.and (l ++ m)) → Dens h P m rs → Apart h P S → depths rs ≤ K →
      ∃ h' d P' S', loopWith f h a b l.length m.length = some (h', d) ∧
        Own h' P' S' d (andFold ra rs) ∧ Step h h' P S P' S' := by
  induction m with
  | nil =>
    intro l rs h P S a b ra hS hD oa hb gb ds ap hk
    cases ds
    exact ⟨h, a, P, S, rfl, by simpa only [andFold] using oa, Step.refl ap⟩
  | cons x m ih =>
    intro l rs h P S a b ra hS hD oa hb gb ds ap hk
    cases ds with
    | @cons _ _ r rs d ds =>
    simp only [depths] at hk
    obtain ⟨h1, d1, P1, S1, e1, o1, s1⟩ := hf h P S a x ra r hS hD oa d ap (by omega)
    have hS1 : S1 ≠ [] := by
      intro hc; have := s1.len; rw [hc] at this
      exact hS (List.eq_nil_of_length_eq_zero this.symm)
    obtain ⟨h2, d2, P2, S2, e2, o2, s2⟩ := ih (l ++ [x]) rs h1 P1 S1 d1 b (andOp ra r) hS1
      (by rw [s1.len]; exact hD) o1 (s1.sub b hb)
      (by rw [s1.keepP ap b hb, gb]; simp) (ds.frame (s1.keepP ap) s1.sub) s1.apart (by omega)
    refine ⟨h2, d2, P2, S2, ?_, by simpa only [andFold] using o2, s1.trans s2⟩
    simp only [List.length_cons, loopWith, gb]
    have hx : (l ++ x :: m)[l.length]? = some x := by simp
    simp only [hx, e1]
    simpa using e2

theorem addR_spec (K : Nat) : ∀ (D n : Nat), D + 2 * K + 2 ≤ n → AddSpec (addR n) D K := by
  induction K with
  | zero =>
    intro D n hn h P S a b ra rb hS hD oa db ap hk
    have hb : notAnd rb = true := by
      cases rb <;> simp [depth, notAnd] at hk ⊢
    exact addFlat D n (by omega) h P S a b ra rb hS hD oa db ap hb
  | succ K ih =>
    intro D n hn h P S a b ra rb hS hD oa db ap hk
    by_cases hb : notAnd rb = true
    · exact addFlat D n (by omega) h P S a b ra rb hS hD oa db ap hb
    · obtain ⟨n, rfl⟩ : ∃ m, n = m + 2 := ⟨n - 2, by omega⟩
      cases db with
      | atom _ ga _ => cases rb <;> simp [isAtom, notAnd] at ga hb
      | or _ _ _ => simp [notAnd] at hb
      | rep _ _ _ => simp [notAnd] at hb
      | @and _ m rs gb hpb ds =>
        obtain ⟨lr, rfl⟩ := oa.ne hS
        simp only [depth] at hk
        obtain ⟨h', d, P', S', e, o, s⟩ := loop_spec (addR n) D K (ih D n (by omega)) m [] rs h P S
          a b _ hS hD oa hpb (by simpa using gb) ds ap (by omega)
        refine ⟨h', d, P', S', ?_, by simpa only [andOp] using o, s⟩
        have ha : ∃ l, h[a]? = some (.and l) := by
          cases oa with
          | other _ _ => exact absurd rfl hS
          | and g _ _ => exact ⟨_, g⟩
        obtain ⟨l, ha⟩ := ha
        simp only [List.length_nil] at e
        simp only [addR, andM, gb, ha, e]

/-- A left operand that is not a `RegexAnd`: only new objects are made. -/
theorem addR_fresh {h : Heap} {a b : Nat} {ra rb : Rx} (da : Den h (· < h.length) a ra)
    (db : Den h (· < h.length) b rb) (ha : notAnd ra = true) (n : Nat) (hn : 2 ≤ n) :
    ∃ t c, addR n h a b = some (h ++ t, c) ∧
      Den (h ++ t) (· < (h ++ t).length) c (andOp ra rb) := by
  obtain ⟨n, rfl⟩ : ∃ m, n = m + 2 := ⟨n - 2, by omega⟩
  have ap : Apart h (· < h.length) [] := ⟨fun x hx => hx, by simp, by simp, by simp⟩
  obtain ⟨hpb, nd, hnb, hb1, hb2⟩ := db.cell
  have fr : ∀ (t : Heap) {x rx}, Den h (· < h.length) x rx →
      Den (h ++ t) (· < (h ++ t).length) x rx := fun t x rx d =>
    d.frame (fun y hy => get_append hy t) (fun y hy => by
      simp only [List.length_append]; omega)
  by_cases he : rb = .empty
  · have := hb2.2 he
    subst he this
    exact ⟨[], a, by simp only [addR, hnb, List.append_nil], by
      simpa only [andOp, List.append_nil] using da⟩
  have hne : nd ≠ .atom .empty := fun h => he (hb2.1 h)
  have pair : Den (h ++ [.and [a, b]]) (· < (h ++ [Node.and [a, b]]).length) h.length
      (.and [ra, rb]) :=
    .and (l := [a, b]) (by simp) (by simp) (.cons (fr _ da) (.cons (fr _ db) .nil))
  have unf : addR (n + 2) h a b = match andM (n + 1) h a b with
      | none => none
      | some (h', some d) => some (h', d)
      | some (h', none) => some (h' ++ [.and [a, b]], h'.length) := by
    rw [addR]
    simp only [hnb]
    split
    · rename_i hh; exact absurd (Option.some.inj hh) hne
    · rfl
  by_cases hb : notAnd rb = true
  · rcases andM_spec (.other da ha) db hb ap (n + 1) (by simp) with
      ⟨e1, e2, _⟩ | ⟨h', d, r, P', S', e1, e2, o, s⟩
    · refine ⟨[.and [a, b]], h.length, by rw [unf, e1], ?_⟩
      have : andOp ra rb = .and [ra, rb] := by
        cases rb <;> simp_all [andOp, notAnd]
      rw [this]; exact pair
    · have hand : andOp ra rb = r := by
        cases rb <;> simp_all [andOp, notAnd]
      have hS' : S' = [] := List.eq_nil_of_length_eq_zero s.len
      subst hS'
      obtain ⟨t, rfl⟩ : ∃ t, h' = h ++ t := by
        refine ⟨h'.drop h.length, ?_⟩
        have : h'.take h.length = h := by
          apply List.ext_getElem?
          intro i
          by_cases hi : i < h.length
          · rw [List.getElem?_take_of_lt hi, s.keep i hi (by simp)]
          · rw [List.getElem?_eq_none (by simp; omega), List.getElem?_eq_none (by omega)]
        calc h' = h'.take h.length ++ h'.drop h.length := (List.take_append_drop _ _).symm
          _ = _ := by rw [this]
      refine ⟨t, d, by rw [unf, e1], ?_⟩
      rw [hand]
      cases o with
      | other od _ => exact od.frame (fun _ _ => rfl) (fun x hx => s.apart.inP x hx)
  · cases db with
    | atom _ ga _ => cases rb <;> simp [isAtom, notAnd] at ga hb
    | or _ _ _ => simp [notAnd] at hb
    | rep _ _ _ => simp [notAnd] at hb
    | @and _ m rs gb hpb ds =>
      cases da with
      | and _ _ _ => simp [notAnd] at ha
      | or g gp gs =>
        exact ⟨[.and [a, b]], h.length, by rw [unf]; simp only [andM, g, gb], by
          simpa only [andOp] using pair⟩
      | rep g gp gs =>
        exact ⟨[.and [a, b]], h.length, by rw [unf]; simp only [andM, g, gb], by
          simpa only [andOp] using pair⟩
      | atom g gat gp =>
        cases ra <;> first
          | exact ⟨[.and [a, b]], h.length, by rw [unf]; simp only [andM, g, gb], by
              simpa only [andOp] using pair⟩
          | exact ⟨[], b, by rw [unf]; simp only [andM, g, gb, List.append_nil], by
              simpa only [andOp, List.append_nil] using Den.and gb hpb ds⟩
          | simp [isAtom] at gat

end Hachoir.Regex
