import Verif.Field.Events

/-!
# C81: events reach the handlers connected before, and no others
-/

set_option linter.unusedVariables false

namespace Hachoir.Props
open Hachoir Hachoir.Events

/-- The names that can be connected. -/
def Known : Name → Bool
  | .unknown _ => false
  | _ => true

/-- The handlers connected to the field set `fs` itself, in the order of their connection. -/
def ownListeners {H A : Type} (fs : Nat) (name : Name) : List (Op H A) → List H
  | [] => []
  | .connect fs' name' h true :: past =>
    if fs' = fs ∧ name' = name ∧ Known name' then h :: ownListeners fs name past else ownListeners fs name past
  | _ :: past => ownListeners fs name past

/-- The handlers connected to the whole tree, from whichever field set. -/
def treeListeners {H A : Type} (name : Name) : List (Op H A) → List H
  | [] => []
  | .connect _ name' h false :: past =>
    if name' = name ∧ Known name' then h :: treeListeners name past else treeListeners name past
  | _ :: past => treeListeners name past

/-- The calls that a program should make: an event is heard by the handlers connected before to
the field set that raises it, then by those connected to the tree, each as often as it was
connected. -/
def heard {H A : Type} (past : List (Op H A)) : List (Op H A) → List (List (H × A))
  | [] => []
  | .connect fs name h isLocal :: ops => [] :: heard (past ++ [.connect fs name h isLocal]) ops
  | .raise fs name args :: ops =>
    (ownListeners fs name past ++ treeListeners name past).map (fun h => (h, args)) ::
      heard (past ++ [.raise fs name args]) ops

theorem raise_connect {H A : Type} (name name' : Name) (h : H) (args : A) (e : Handlers H) :
    raise name args (connect name' h e) =
      raise name args e ++ (if name' = name then [(h, args)] else []) := by
  induction e with
  | nil =>
    unfold connect raise
    split <;> simp [raise]
  | cons p rest ih =>
    obtain ⟨k, hs⟩ := p
    unfold connect
    by_cases hk : k = name'
    · rw [if_pos hk]
      subst hk
      unfold raise
      by_cases hn : k = name
      · simp [hn]
      · simp [hn]
    · rw [if_neg hk]
      unfold raise
      by_cases hn : k = name
      · rw [if_pos hn, if_pos hn, if_neg (fun h => hk (by rw [hn, h]))]
        simp
      · rw [if_neg hn, if_neg hn, ih]

theorem localHandler_setLocal {H : Type} (fs fs' : Nat) (e : Handlers H) (l : List (Nat × Handlers H)) :
    localHandler fs (setLocal fs' e l) = if fs' = fs then some e else localHandler fs l := by
  induction l with
  | nil => unfold setLocal localHandler; split <;> simp [localHandler]
  | cons p rest ih =>
    obtain ⟨i, e'⟩ := p
    unfold setLocal
    by_cases hi : i = fs'
    · rw [if_pos hi]
      subst hi
      unfold localHandler
      by_cases h : i = fs
      · simp [h]
      · simp [h]
    · rw [if_neg hi]
      unfold localHandler
      by_cases h : i = fs
      · rw [if_pos h, if_pos h, if_neg (fun hh => hi (by rw [h, hh]))]
      · rw [if_neg h, if_neg h, ih]

/-- The calls of an optional handler list. -/
def callsOf {H A : Type} (name : Name) (args : A) : Option (Handlers H) → List (H × A)
  | some e => raise name args e
  | none => []

theorem raiseEvent_eq {H A : Type} (t : Tree H) (fs : Nat) (name : Name) (args : A) :
    raiseEvent t fs name args = callsOf name args (localHandler fs t.handlers) ++ callsOf name args t.shared := by
  unfold raiseEvent
  cases localHandler fs t.handlers <;> cases t.shared <;> rfl

theorem callsOf_connect {H A : Type} (name name' : Name) (h : H) (args : A) (e : Option (Handlers H)) :
    callsOf name args (some (connect name' h (e.getD []))) =
      callsOf name args e ++ (if name' = name then [(h, args)] else []) := by
  cases e with
  | none => exact raise_connect name name' h args []
  | some e => exact raise_connect name name' h args e

theorem own_append {H A : Type} (fs : Nat) (name : Name) (past l : List (Op H A)) :
    ownListeners fs name (past ++ l) = ownListeners fs name past ++ ownListeners fs name l := by
  induction past with
  | nil => rfl
  | cons o past ih =>
    cases o with
    | raise => simpa [ownListeners] using ih
    | connect fs' name' h b =>
      cases b with
      | false => simpa [ownListeners] using ih
      | true =>
        simp only [List.cons_append, ownListeners, ih]
        split <;> rfl

theorem tree_append {H A : Type} (name : Name) (past l : List (Op H A)) :
    treeListeners name (past ++ l) = treeListeners name past ++ treeListeners name l := by
  induction past with
  | nil => rfl
  | cons o past ih =>
    cases o with
    | raise => simpa [treeListeners] using ih
    | connect fs' name' h b =>
      cases b with
      | true => simpa [treeListeners] using ih
      | false =>
        simp only [List.cons_append, treeListeners, ih]
        split <;> rfl

theorem run_heard {H A : Type} (ops past : List (Op H A)) (t : Tree H)
    (hl : ∀ fs name (args : A), callsOf name args (localHandler fs t.handlers) =
      (ownListeners fs name past).map fun h => (h, args))
    (hg : ∀ name (args : A), callsOf name args t.shared = (treeListeners name past).map fun h => (h, args)) :
    run t ops = heard past ops := by
  induction ops generalizing past t with
  | nil => rfl
  | cons o ops ih =>
    cases o with
    | raise fs name args =>
      unfold run heard
      rw [raiseEvent_eq, hl, hg, List.map_append]
      congr 1
      exact ih _ t (by intros; rw [own_append, hl]; simp [ownListeners])
        (by intros; rw [tree_append, hg]; simp [treeListeners])
    | connect fs name h b =>
      have hun : Known name = false → connectEvent t fs name h b = .error .assertion := by
        intro hk
        cases name <;> first | rfl | cases hk
      have hok : Known name = true → connectEvent t fs name h b =
          if b then .ok { t with handlers := setLocal fs (connect name h ((localHandler fs t.handlers).getD [])) t.handlers }
          else .ok { t with shared := some (connect name h (t.shared.getD [])) } := by
        intro hk
        cases name <;> first | rfl | cases hk
      unfold run heard
      cases hk : Known name with
      | false =>
        rw [hun hk]
        simp only
        congr 1
        exact ih _ t (by intros; rw [own_append, hl]; cases b <;> simp [ownListeners, hk])
          (by intros; rw [tree_append, hg]; cases b <;> simp [treeListeners, hk])
      | true =>
        rw [hok hk]
        cases b with
        | true =>
          simp only [if_true]
          congr 1
          refine ih _ _ ?_ ?_
          · intro fs' name' args
            simp only
            rw [localHandler_setLocal, own_append, List.map_append, ← hl]
            by_cases hf : fs = fs'
            · subst hf
              rw [if_pos rfl, callsOf_connect]
              by_cases hn : name = name' <;> simp [ownListeners, hk, hn]
              rw [← hn, hk]; rfl
            · rw [if_neg hf]
              simp [ownListeners, hf]
          · intros; rw [tree_append, hg]; simp [treeListeners]
        | false =>
          simp only [Bool.false_eq_true, if_false]
          congr 1
          refine ih _ _ ?_ ?_
          · intros; rw [own_append, hl]; simp [ownListeners]
          · intro name' args
            simp only
            rw [callsOf_connect, tree_append, List.map_append, ← hg]
            by_cases hn : name = name' <;> simp [treeListeners, hk, hn]
            rw [← hn, hk]; rfl

/-- C81: in every program that connects handlers and raises events, each event calls exactly the
handlers connected before to this field set and this event, then those connected to the tree, in
the order of their connection; connecting to an unknown event changes nothing. -/
theorem C81_events {H A : Type} (ops : List (Op H A)) : run ⟨[], none⟩ ops = heard [] ops :=
  run_heard ops [] _ (fun _ _ _ => rfl) (fun _ _ => rfl)

/-- Handlers 1 and 2 of field set 0, handler 3 of the tree. -/
example : run (H := Nat) (A := Char) ⟨[], none⟩
    [.connect 0 .resized 1 true, .connect 5 .resized 3 false, .connect 0 .resized 2 true, .raise 0 .resized 'a',
      .raise 5 .resized 'b', .raise 0 .inserted 'c'] =
    [[], [], [], [(1, 'a'), (2, 'a'), (3, 'a')], [(3, 'b')], []] := by
  rw [C81_events]; decide

/-- C81, unknown names are refused. -/
theorem C81_unknown {H : Type} (t : Tree H) (fs : Nat) (name : Name) (h : H) (b : Bool) :
    connectEvent t fs name h b = .error .assertion ↔ Known name = false := by
  cases name <;> cases b <;> simp [connectEvent, Known]

end Hachoir.Props
