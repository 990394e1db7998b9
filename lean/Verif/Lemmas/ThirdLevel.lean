import Verif.Model.ThirdLevel
import Verif.Lemmas.Runs

/-!
# Lemmas about the third-level manager
-/

namespace Verif

variable {α R : Type}

theorem sysStep_send {cap : ℕ} {s : Bool} {x : TLState α R} {m : TLMsg α} {k : SysProg α R}
    (h : x.sys s = .send m k) (hc : (x.up s).length < cap) :
    sysStep cap s x = some { x with
      sys := Function.update x.sys s k, up := Function.update x.up s (x.up s ++ [m]) } := by
  unfold sysStep
  rw [h]
  simp only
  rw [if_pos hc]

theorem sysStep_recv {cap : ℕ} {s : Bool} {x : TLState α R} {k : TLMsg α → SysProg α R}
    {m : TLMsg α} {rest : List (TLMsg α)} (h : x.sys s = .recv k) (hd : x.down s = m :: rest) :
    sysStep cap s x = some { x with
      sys := Function.update x.sys s (k m), down := Function.update x.down s rest } := by
  unfold sysStep
  rw [h]
  simp only
  rw [hd]

theorem sysStep_cases {cap : ℕ} {s : Bool} {x y : TLState α R} (h : sysStep cap s x = some y) :
    (∃ m k, x.sys s = .send m k ∧ (x.up s).length < cap ∧ y = { x with
      sys := Function.update x.sys s k, up := Function.update x.up s (x.up s ++ [m]) }) ∨
    (∃ k m rest, x.sys s = .recv k ∧ x.down s = m :: rest ∧ y = { x with
      sys := Function.update x.sys s (k m), down := Function.update x.down s rest }) := by
  unfold sysStep at h
  split at h
  · exact absurd h (by simp)
  · exact absurd h (by simp)
  · next m k hm =>
    split at h
    · next hc => exact .inl ⟨m, k, hm, hc, (Option.some.inj h).symm⟩
    · exact absurd h (by simp)
  · next k hk =>
    split at h
    · exact absurd h (by simp)
    · next m rest hr => exact .inr ⟨k, m, rest, hk, hr, (Option.some.inj h).symm⟩

theorem mgrStep_loop {cap sz : ℕ} {s : Bool} {x : TLState α R} {systems : List Bool} {m : TLMsg α}
    {rest : List (TLMsg α)} (h : x.mgr.unfold sz = .loop systems) (hs : s ∈ systems)
    (hu : x.up s = m :: rest) :
    mgrStep cap sz s x = some { x with
      mgr := processMessage sz systems s m, up := Function.update x.up s rest } := by
  unfold mgrStep
  rw [h]
  simp only
  rw [if_pos hs, hu]

theorem mgrStep_send {cap sz : ℕ} {s t : Bool} {x : TLState α R} {m : TLMsg α} {k : MgrProg α}
    (h : x.mgr.unfold sz = .send t m k) (hc : (x.down t).length < cap) :
    mgrStep cap sz s x = some { x with
      mgr := k, down := Function.update x.down t (x.down t ++ [m]) } := by
  unfold mgrStep
  rw [h]
  simp only
  rw [if_pos hc]

theorem mgrStep_recv {cap sz : ℕ} {s t : Bool} {x : TLState α R} {k : TLMsg α → MgrProg α}
    {m : TLMsg α} {rest : List (TLMsg α)} (h : x.mgr.unfold sz = .recv t k)
    (hu : x.up t = m :: rest) :
    mgrStep cap sz s x = some { x with mgr := k m, up := Function.update x.up t rest } := by
  unfold mgrStep
  rw [h]
  simp only
  rw [hu]

theorem mgrStep_cases {cap sz : ℕ} {s : Bool} {x y : TLState α R}
    (h : mgrStep cap sz s x = some y) :
    (∃ systems m rest, x.mgr.unfold sz = .loop systems ∧ s ∈ systems ∧ x.up s = m :: rest ∧
      y = { x with mgr := processMessage sz systems s m, up := Function.update x.up s rest }) ∨
    (∃ t m k, x.mgr.unfold sz = .send t m k ∧ (x.down t).length < cap ∧
      y = { x with mgr := k, down := Function.update x.down t (x.down t ++ [m]) }) ∨
    (∃ t k m rest, x.mgr.unfold sz = .recv t k ∧ x.up t = m :: rest ∧
      y = { x with mgr := k m, up := Function.update x.up t rest }) := by
  unfold mgrStep at h
  split at h
  · next systems hm =>
    split at h
    · next hs =>
      split at h
      · exact absurd h (by simp)
      · next m rest hr => exact .inl ⟨systems, m, rest, hm, hs, hr, (Option.some.inj h).symm⟩
    · exact absurd h (by simp)
  · exact absurd h (by simp)
  · exact absurd h (by simp)
  · next t m k hm =>
    split at h
    · next hc => exact .inr (.inl ⟨t, m, k, hm, hc, (Option.some.inj h).symm⟩)
    · exact absurd h (by simp)
  · next t k hm =>
    split at h
    · exact absurd h (by simp)
    · next m rest hr => exact .inr (.inr ⟨t, k, m, rest, hm, hr, (Option.some.inj h).symm⟩)

/-- Steps of different systems commute. -/
theorem sysStep_comm (cap : ℕ) {s t : Bool} (hst : s ≠ t) {x y z : TLState α R}
    (hy : sysStep cap s x = some y) (hz : sysStep cap t x = some z) :
    ∃ w, sysStep cap t y = some w ∧ sysStep cap s z = some w := by
  rcases sysStep_cases hy with ⟨m, k, h1, h2, rfl⟩ | ⟨k, m, rest, h1, h2, rfl⟩ <;>
    rcases sysStep_cases hz with ⟨m', k', h1', h2', rfl⟩ | ⟨k', m', rest', h1', h2', rfl⟩
  · refine ⟨_, sysStep_send (m := m') (k := k') ?_ ?_, (sysStep_send (m := m) (k := k) ?_ ?_).trans ?_⟩
    · simpa [Function.update_of_ne hst.symm] using h1'
    · simpa [Function.update_of_ne hst.symm] using h2'
    · simpa [Function.update_of_ne hst] using h1
    · simpa [Function.update_of_ne hst] using h2
    · simp [Function.update_of_ne hst, Function.update_of_ne hst.symm, Function.update_comm hst]
  · refine ⟨_, sysStep_recv (k := k') (m := m') (rest := rest') ?_ ?_,
      (sysStep_send (m := m) (k := k) ?_ ?_).trans ?_⟩
    · simpa [Function.update_of_ne hst.symm] using h1'
    · simpa [Function.update_of_ne hst.symm] using h2'
    · simpa [Function.update_of_ne hst] using h1
    · simpa [Function.update_of_ne hst] using h2
    · simp [Function.update_comm hst]
  · refine ⟨_, sysStep_send (m := m') (k := k') ?_ ?_,
      (sysStep_recv (k := k) (m := m) (rest := rest) ?_ ?_).trans ?_⟩
    · simpa [Function.update_of_ne hst.symm] using h1'
    · simpa [Function.update_of_ne hst.symm] using h2'
    · simpa [Function.update_of_ne hst] using h1
    · simpa [Function.update_of_ne hst] using h2
    · simp [Function.update_comm hst]
  · refine ⟨_, sysStep_recv (k := k') (m := m') (rest := rest') ?_ ?_,
      (sysStep_recv (k := k) (m := m) (rest := rest) ?_ ?_).trans ?_⟩
    · simpa [Function.update_of_ne hst.symm] using h1'
    · simpa [Function.update_of_ne hst.symm] using h2'
    · simpa [Function.update_of_ne hst] using h1
    · simpa [Function.update_of_ne hst] using h2
    · simp [Function.update_comm hst]

/-- A step of a system and a step of the manager commute, also if the manager chooses a system. -/
theorem sysStep_mgrStep_comm (cap sz : ℕ) {s c : Bool} {x y z : TLState α R}
    (hy : sysStep cap s x = some y) (hz : mgrStep cap sz c x = some z) :
    ∃ w, mgrStep cap sz c y = some w ∧ sysStep cap s z = some w := by
  rcases sysStep_cases hy with ⟨m, k, h1, h2, rfl⟩ | ⟨k, m, rest, h1, h2, rfl⟩
  · rcases mgrStep_cases hz with ⟨systems, m', rest', g1, g2, g3, rfl⟩ | ⟨t, m', k', g1, g2, rfl⟩ |
      ⟨t, k', m', rest', g1, g2, rfl⟩
    · by_cases hsc : s = c
      · subst hsc
        refine ⟨_, mgrStep_loop (m := m') (rest := rest' ++ [m]) g1 g2 (by simp [g3]),
          (sysStep_send (m := m) (k := k) (by exact h1) ?_).trans ?_⟩
        · simp [g3] at h2 ⊢; omega
        · simp
      · refine ⟨_, mgrStep_loop (m := m') (rest := rest') g1 g2
          (by simpa [Function.update_of_ne (Ne.symm hsc)] using g3),
          (sysStep_send (m := m) (k := k) (by exact h1) ?_).trans ?_⟩
        · simpa [Function.update_of_ne hsc] using h2
        · simp [Function.update_of_ne hsc, Function.update_comm hsc]
    · exact ⟨_, mgrStep_send (m := m') (k := k') g1 g2,
        (sysStep_send (m := m) (k := k) h1 h2)⟩
    · by_cases hsc : s = t
      · subst hsc
        refine ⟨_, mgrStep_recv (m := m') (rest := rest' ++ [m]) g1 (by simp [g2]),
          (sysStep_send (m := m) (k := k) (by exact h1) ?_).trans ?_⟩
        · simp [g2] at h2 ⊢; omega
        · simp
      · refine ⟨_, mgrStep_recv (m := m') (rest := rest') g1
          (by simpa [Function.update_of_ne (Ne.symm hsc)] using g2),
          (sysStep_send (m := m) (k := k) (by exact h1) ?_).trans ?_⟩
        · simpa [Function.update_of_ne hsc] using h2
        · simp [Function.update_of_ne hsc, Function.update_comm hsc]
  · rcases mgrStep_cases hz with ⟨systems, m', rest', g1, g2, g3, rfl⟩ | ⟨t, m', k', g1, g2, rfl⟩ |
      ⟨t, k', m', rest', g1, g2, rfl⟩
    · exact ⟨_, mgrStep_loop g1 g2 g3, sysStep_recv h1 h2⟩
    · by_cases hsc : s = t
      · subst hsc
        refine ⟨_, mgrStep_send (m := m') (k := k') g1 ?_,
          (sysStep_recv (k := k) (m := m) (rest := rest ++ [m']) (by exact h1) (by simp [h2])).trans ?_⟩
        · simp [h2] at g2 ⊢; omega
        · simp
      · refine ⟨_, mgrStep_send (m := m') (k := k') g1 ?_,
          (sysStep_recv (k := k) (m := m) (rest := rest) (by exact h1)
            (by simpa [Function.update_of_ne hsc] using h2)).trans ?_⟩
        · simpa [Function.update_of_ne (Ne.symm hsc)] using g2
        · simp [Function.update_of_ne (Ne.symm hsc), Function.update_comm hsc]
    · exact ⟨_, mgrStep_recv g1 g2, sysStep_recv h1 h2⟩

/-- The next step of a system may be taken first. -/
theorem inevitable_sys {cap sz : ℕ} {P : TLState α R → Prop} {s : Bool} {x y : TLState α R}
    (h : sysStep cap s x = some y) (hy : Inevitable (TLStep cap sz) P y) :
    Inevitable (TLStep cap sz) P x := by
  refine Inevitable.back (sysStep cap s) (fun x y h => .sys s x y h) ?_ h hy
  intro x y z hxy hxz
  cases hxz with
  | sys t _ _ ht =>
    by_cases hst : s = t
    · subst hst
      exact .inl (Option.some.inj (ht.symm.trans hxy))
    · obtain ⟨w, h1, h2⟩ := sysStep_comm cap hst hxy ht
      exact .inr ⟨w, h2, .sys t _ _ h1⟩
  | mgr c _ _ hc =>
    obtain ⟨w, h1, h2⟩ := sysStep_mgrStep_comm cap sz hxy hc
    exact .inr ⟨w, h2, .mgr c _ _ h1⟩

/-- The step of the manager, unless it has a choice. -/
def mgrStepFixed (cap sz : ℕ) (x : TLState α R) : Option (TLState α R) :=
  match x.mgr.unfold sz with
  | .loop _ => none
  | _ => mgrStep cap sz false x

theorem mgrStepFixed_eq {cap sz : ℕ} {x y : TLState α R} (h : mgrStepFixed cap sz x = some y)
    (c : Bool) : mgrStep cap sz c x = some y := by
  unfold mgrStepFixed at h
  unfold mgrStep at h ⊢
  cases hm : x.mgr.unfold sz <;> simp [hm] at h ⊢ <;> exact h

theorem mgrStepFixed_of_not_loop {cap sz : ℕ} {x : TLState α R}
    (h : ∀ l, x.mgr.unfold sz ≠ .loop l) :
    mgrStepFixed cap sz x = mgrStep cap sz false x := by
  unfold mgrStepFixed
  cases hm : x.mgr.unfold sz with
  | loop l => exact absurd hm (h l)
  | _ => rfl

/-- The next step of the manager may be taken first, unless it is a choice. -/
theorem inevitable_mgr {cap sz : ℕ} {P : TLState α R → Prop} {x y : TLState α R}
    (h : mgrStepFixed cap sz x = some y) (hy : Inevitable (TLStep cap sz) P y) :
    Inevitable (TLStep cap sz) P x := by
  refine Inevitable.back (mgrStepFixed cap sz) (fun x y h => .mgr false x y (mgrStepFixed_eq h _)) ?_
    h hy
  intro x y z hxy hxz
  cases hxz with
  | sys t _ _ ht =>
    obtain ⟨w, h1, h2⟩ := sysStep_mgrStep_comm cap sz ht (mgrStepFixed_eq hxy false)
    refine .inr ⟨w, ?_, .sys t _ _ h2⟩
    rw [mgrStepFixed_of_not_loop, h1]
    intro l hl
    have hmgr : z.mgr = x.mgr := by
      rcases sysStep_cases ht with ⟨m, k, -, -, rfl⟩ | ⟨k, m, rest, -, -, rfl⟩ <;> rfl
    rw [hmgr] at hl
    unfold mgrStepFixed at hxy
    rw [hl] at hxy
    exact absurd hxy (by simp)
  | mgr c _ _ hc => exact .inl (Option.some.inj (hc.symm.trans (mgrStepFixed_eq hxy c)))

/-! ### Rounds -/

/-- A state given by what belongs to the initiator `i` and what belongs to the other system. -/
def tlst (i : Bool) (a b : SysProg α R) (mgr : MgrProg α) (ua ub da db : List (TLMsg α)) :
    TLState α R where
  sys := fun s => if s = i then a else b
  mgr := mgr
  up := fun s => if s = i then ua else ub
  down := fun s => if s = i then da else db

theorem update_ite_self {β : Type} (i : Bool) (a b c : β) :
    Function.update (fun s => if s = i then a else b) i c = fun s => if s = i then c else b := by
  funext s
  by_cases h : s = i
  · subst h; simp
  · simp [h]

theorem update_ite_other {β : Type} (i : Bool) (a b c : β) :
    Function.update (fun s => if s = i then a else b) (!i) c = fun s => if s = i then a else c := by
  funext s
  by_cases h : s = i
  · subst h; simp
  · have : s = !i := by revert h; cases s <;> cases i <;> simp
    subst this; simp

section
variable {cap sz : ℕ} {P : TLState α R → Prop} {i : Bool} {a b : SysProg α R} {M : MgrProg α}
  {ua ub da db : List (TLMsg α)} {m : TLMsg α}

/-- The initiator sends a message for which the manager waits. -/
theorem tl_up_i (hcap : 0 < cap) (k : TLMsg α → MgrProg α) (hM : M.unfold sz = .recv i k)
    (h : Inevitable (TLStep cap sz) P (tlst i a b (k m) [] ub da db)) :
    Inevitable (TLStep cap sz) P (tlst i (.send m a) b M [] ub da db) := by
  refine inevitable_sys (s := i) (sysStep_send (m := m) (k := a) ?_ ?_) ?_
  · simp [tlst]
  · simpa [tlst] using hcap
  refine inevitable_mgr (y := tlst i a b (k m) [] ub da db) ?_ h
  rw [mgrStepFixed_of_not_loop]
  · rw [mgrStep_recv (k := k) (t := i) (m := m) (rest := []) (by exact hM) (by simp [tlst])]
    simp [tlst, update_ite_self]
  · intro l hl
    simp only [tlst] at hl
    rw [hM] at hl
    exact absurd hl (by simp)

/-- The other system sends a message for which the manager waits. -/
theorem tl_up_o (hcap : 0 < cap) (k : TLMsg α → MgrProg α) (hM : M.unfold sz = .recv (!i) k)
    (h : Inevitable (TLStep cap sz) P (tlst i a b (k m) ua [] da db)) :
    Inevitable (TLStep cap sz) P (tlst i a (.send m b) M ua [] da db) := by
  refine inevitable_sys (s := !i) (sysStep_send (m := m) (k := b) ?_ ?_) ?_
  · simp [tlst]
  · simpa [tlst] using hcap
  refine inevitable_mgr (y := tlst i a b (k m) ua [] da db) ?_ h
  rw [mgrStepFixed_of_not_loop]
  · rw [mgrStep_recv (k := k) (t := !i) (m := m) (rest := []) (by exact hM) (by simp [tlst])]
    simp [tlst, update_ite_other]
  · intro l hl
    simp only [tlst] at hl
    rw [hM] at hl
    exact absurd hl (by simp)

/-- The manager takes a message that has arrived. -/
theorem tl_mgr_o (k : TLMsg α → MgrProg α) (hM : M.unfold sz = .recv (!i) k)
    (h : Inevitable (TLStep cap sz) P (tlst i a b (k m) ua ub da db)) :
    Inevitable (TLStep cap sz) P (tlst i a b M ua (m :: ub) da db) := by
  refine inevitable_mgr (y := tlst i a b (k m) ua ub da db) ?_ h
  rw [mgrStepFixed_of_not_loop]
  · rw [mgrStep_recv (k := k) (t := !i) (m := m) (rest := ub) (by exact hM) (by simp [tlst])]
    simp [tlst, update_ite_other]
  · intro l hl
    simp only [tlst] at hl
    rw [hM] at hl
    exact absurd hl (by simp)

/-- The manager sends a message for which the initiator waits. -/
theorem tl_down_i (hcap : 0 < cap) (k : TLMsg α → SysProg α R) (N : MgrProg α)
    (hM : M.unfold sz = .send i m N)
    (h : Inevitable (TLStep cap sz) P (tlst i (k m) b N ua ub [] db)) :
    Inevitable (TLStep cap sz) P (tlst i (.recv k) b M ua ub [] db) := by
  have hl : ∀ l, (tlst i (.recv k) b M ua ub [] db).mgr.unfold sz ≠ .loop l := by
    intro l hl
    simp only [tlst] at hl
    rw [hM] at hl
    exact absurd hl (by simp)
  refine inevitable_mgr (y := tlst i (.recv k) b N ua ub [m] db) ?_ ?_
  · rw [mgrStepFixed_of_not_loop hl, mgrStep_send (t := i) (m := m) (k := N) (by exact hM)
      (by simpa [tlst] using hcap)]
    simp [tlst, update_ite_self]
  · refine inevitable_sys (s := i) (sysStep_recv (k := k) (m := m) (rest := []) ?_ ?_) ?_
    · simp [tlst]
    · simp [tlst]
    · simpa [tlst, update_ite_self] using h

/-- The manager sends a message for which the other system waits. -/
theorem tl_down_o (hcap : 0 < cap) (k : TLMsg α → SysProg α R) (N : MgrProg α)
    (hM : M.unfold sz = .send (!i) m N)
    (h : Inevitable (TLStep cap sz) P (tlst i a (k m) N ua ub da [])) :
    Inevitable (TLStep cap sz) P (tlst i a (.recv k) M ua ub da []) := by
  have hl : ∀ l, (tlst i a (.recv k) M ua ub da []).mgr.unfold sz ≠ .loop l := by
    intro l hl
    simp only [tlst] at hl
    rw [hM] at hl
    exact absurd hl (by simp)
  refine inevitable_mgr (y := tlst i a (.recv k) N ua ub da [m]) ?_ ?_
  · rw [mgrStepFixed_of_not_loop hl, mgrStep_send (t := !i) (m := m) (k := N) (by exact hM)
      (by simpa [tlst] using hcap)]
    simp [tlst, update_ite_other]
  · refine inevitable_sys (s := !i) (sysStep_recv (k := k) (m := m) (rest := []) ?_ ?_) ?_
    · simp [tlst]
    · simp [tlst]
    · simpa [tlst, update_ite_other] using h

end

/-- Both systems send a request and wait for an instruction; the manager serves any of them first. -/
theorem tl_round {cap sz : ℕ} {P : TLState α R → Prop} (hcap : 0 < cap)
    (r : Bool → TLMsg α) (k : Bool → TLMsg α → SysProg α R)
    (h : ∀ i, Inevitable (TLStep cap sz) P (tlst i (.recv (k i)) (.recv (k (!i)))
      (processMessage sz [false, true] i (r i)) [] [r (!i)] [] [])) :
    Inevitable (TLStep cap sz) P ⟨fun s => .send (r s) (.recv (k s)), .loop [false, true],
      fun _ => [], fun _ => []⟩ := by
  refine inevitable_sys (s := false) (sysStep_send rfl hcap) ?_
  refine inevitable_sys (s := true) (sysStep_send (m := r true) (k := .recv (k true)) (by simp)
    (by simpa using hcap)) ?_
  have hstate : ({
      sys := Function.update (Function.update (fun s => SysProg.send (r s) (.recv (k s))) false
        (.recv (k false))) true (.recv (k true)),
      mgr := .loop [false, true],
      up := Function.update (Function.update (fun _ => []) false ([] ++ [r false])) true
        ((Function.update (fun _ => []) false ([] ++ [r false])) true ++ [r true]),
      down := fun _ => [] } : TLState α R) =
      ⟨fun s => .recv (k s), .loop [false, true], fun s => [r s], fun _ => []⟩ := by
    congr 1 <;> funext s <;> cases s <;> simp
  rw [hstate]
  have hm : ∀ i, mgrStep cap sz i (⟨fun s => .recv (k s), .loop [false, true], fun s => [r s],
      fun _ => []⟩ : TLState α R) = some (tlst i (.recv (k i)) (.recv (k (!i)))
      (processMessage sz [false, true] i (r i)) [] [r (!i)] [] []) := by
    intro i
    rw [mgrStep_loop (systems := [false, true]) rfl (by cases i <;> simp) rfl]
    congr 1
    unfold tlst
    congr 1 <;> funext s <;> cases s <;> cases i <;> simp
  refine .step _ ⟨_, .mgr false _ _ (hm false)⟩ fun y hy => ?_
  cases hy with
  | sys s _ _ hs =>
    unfold sysStep at hs
    exact absurd hs (by simp)
  | mgr i _ _ hi =>
    rw [hm i] at hi
    cases hi
    exact h i

/-- Both systems log off. -/
theorem tl_finish {cap sz : ℕ} {P : TLState α R → Prop} (hcap : 0 < cap) (r : Bool → R)
    (h : P ⟨fun s => .done (r s), .loop [], fun _ => [], fun _ => []⟩) :
    Inevitable (TLStep cap sz) P ⟨fun s => .send .finished (.done (r s)), .loop [false, true],
      fun _ => [], fun _ => []⟩ := by
  refine inevitable_sys (s := false) (sysStep_send rfl hcap) ?_
  refine inevitable_sys (s := true) (sysStep_send (m := .finished) (k := .done (r true)) (by simp)
    (by simpa using hcap)) ?_
  have hstate : ({
      sys := Function.update (Function.update (fun s => SysProg.send .finished (.done (r s))) false
        (.done (r false))) true (.done (r true)),
      mgr := .loop [false, true],
      up := Function.update (Function.update (fun _ => []) false ([] ++ [.finished])) true
        ((Function.update (fun _ => []) false ([] ++ [.finished])) true ++ [.finished]),
      down := fun _ => [] } : TLState α R) =
      ⟨fun s => .done (r s), .loop [false, true], fun _ => [.finished], fun _ => []⟩ := by
    congr 1 <;> funext s <;> cases s <;> simp
  rw [hstate]
  have hm : ∀ i, mgrStep cap sz i (⟨fun s => .done (r s), .loop [false, true],
      fun _ => [.finished], fun _ => []⟩ : TLState α R) =
      some ⟨fun s => .done (r s), .loop [!i], fun s => if s = i then [] else [.finished],
        fun _ => []⟩ := by
    intro i
    rw [mgrStep_loop (systems := [false, true]) rfl (by cases i <;> simp) rfl]
    congr 1
    congr 1
    · cases i <;> rfl
    · funext s; cases s <;> cases i <;> simp
  refine .step _ ⟨_, .mgr false _ _ (hm false)⟩ fun y hy => ?_
  cases hy with
  | sys s _ _ hs =>
    unfold sysStep at hs
    exact absurd hs (by simp)
  | mgr i _ _ hi =>
    rw [hm i] at hi
    cases hi
    have hm' : mgrStep cap sz (!i) (⟨fun s => .done (r s), .loop [!i],
        fun s => if s = i then [] else [.finished], fun _ => []⟩ : TLState α R) =
        some ⟨fun s => .done (r s), .loop [], fun _ => [], fun _ => []⟩ := by
      rw [mgrStep_loop (systems := [!i]) (m := .finished) (rest := []) rfl (by simp) (by simp)]
      congr 1
      congr 1
      · cases i <;> rfl
      · funext s; cases s <;> cases i <;> simp
    refine .step _ ⟨_, .mgr _ _ _ hm'⟩ fun y hy => ?_
    cases hy with
    | sys s _ _ hs =>
      unfold sysStep at hs
      exact absurd hs (by simp)
    | mgr j _ _ hj =>
      have hji : j = !i := by
        unfold mgrStep at hj
        simp only [MgrProg.unfold] at hj
        split at hj
        · next hmem => simpa using hmem
        · exact absurd hj (by simp)
      subst hji
      rw [hm'] at hj
      cases hj
      refine .here _ h fun y hy => ?_
      cases hy with
      | sys s _ _ hs =>
        unfold sysStep at hs
        exact absurd hs (by simp)
      | mgr j _ _ hj =>
        unfold mgrStep at hj
        exact absurd hj (by simp [MgrProg.unfold])

end Verif
