import Verif.Lemmas.SchemeFile
import Verif.Props.SchemeGenerator

/-!
# C101: a combination scheme in a file is read as it was written, and every group gets its grids

A grid in the file is a triple of its coefficient, its level and, if given, the number of its group.
`Describes readReal c e` says that the entries of `c` are `coeff`, `level` and, if `e` has a group number,
`group_no`, in any order, with texts which are read as those of `e`.
-/

namespace Verif.SchemeFile

section
variable {K : Type} (readReal : String → Option K)

/-- The bounds which the constructor admits. -/
def GoodBounds (dim : ℕ) (lmin lmax : List ℤ) : Prop :=
  0 < dim ∧ lmin.length = dim ∧ (∀ x ∈ lmin, 0 < x) ∧ List.Forall₂ (· ≤ ·) lmin lmax

lemma boundsOk_of {dim : ℕ} {lmin lmax : List ℤ} (h : GoodBounds dim lmin lmax) :
    boundsOk dim lmin lmax = true := by
  obtain ⟨h1, h2, h3, h4⟩ := h
  have h5 : ∀ x ∈ lmax, 0 < x := by
    clear h1 h2
    induction h4 with
    | nil => simp
    | @cons a b la lb hab _ ih =>
      intro x hx
      rcases List.mem_cons.1 hx with rfl | hx
      · exact (h3 a (by simp)).trans_le hab
      · exact ih (fun y hy => h3 y (by simp [hy])) x hx
  unfold boundsOk
  simp only [Bool.and_eq_true, decide_eq_true_eq, List.all_eq_true]
  exact ⟨⟨⟨⟨⟨h1, h4.length_eq ▸ h2⟩, h5⟩, h2⟩, h3⟩, (leVecZ_iff _ _).2 h4⟩

/-- A file with at least one grid, all of them between `lmin` and `lmax`, all with or all without a group
number, is read as it was written: coefficients, levels and group numbers in the order of the file, whatever
the order of the entries of each grid. -/
theorem C101_read (dim : ℕ) (lmin lmax : List ℤ) (hb : GoodBounds dim lmin lmax) (t : SchemeTree)
    (grids : List (K × List ℤ × Option ℤ))
    (ht : List.Forall₂ (fun c e => c.1 = "" ∧ Describes readReal c.2 e) t grids) (hne : grids ≠ [])
    (hl : ∀ e ∈ grids, List.Forall₂ (· ≤ ·) lmin e.2.1 ∧ List.Forall₂ (· ≤ ·) e.2.1 lmax)
    (hg : (∀ e ∈ grids, e.2.2 ≠ none) ∨ ∀ e ∈ grids, e.2.2 = none) :
    readScheme readReal dim lmin lmax (some t) =
      .ok ⟨grids.map Prod.fst, grids.map fun e => e.2.1, grids.filterMap fun e => e.2.2⟩ := by
  have h := readComponents_ok (readReal := readReal) (dim := dim) grids t [] ht
    (fun e he => ⟨by rw [← (hl e he).1.length_eq, hb.2.1], hl e he⟩) (by simpa using hg)
  simp only [List.map_nil, List.filterMap_nil, List.nil_append] at h
  unfold readScheme
  rw [if_pos (boundsOk_of hb)]
  simp only
  rw [h]
  simp only [Outcome.bind]
  rw [if_pos]
  refine ⟨?_, by simp⟩
  rw [List.length_map]
  exact List.length_pos_of_ne_nil hne

/-- Whatever file is accepted: the scheme is not empty, it has a coefficient for every level, a group number
for every level or none, and all levels have the right dimension and lie between `lmin` and `lmax`. -/
theorem C101_accepted (dim : ℕ) (lmin lmax : List ℤ) (file : Option SchemeTree) (s : FileScheme K)
    (h : readScheme readReal dim lmin lmax file = .ok s) :
    s.combiSpaces ≠ [] ∧ s.coefficients.length = s.combiSpaces.length ∧
      (s.groupNumbers.length = s.combiSpaces.length ∨ s.groupNumbers = []) ∧
      ∀ l ∈ s.combiSpaces, l.length = dim ∧ List.Forall₂ (· ≤ ·) lmin l ∧ List.Forall₂ (· ≤ ·) l lmax := by
  unfold readScheme at h
  split at h
  · split at h
    · cases h
    · rename_i t
      cases hr : readComponents readReal dim lmin lmax t ⟨[], [], []⟩ with
      | error => rw [hr] at h; cases h
      | stuck => rw [hr] at h; cases h
      | ok r =>
        rw [hr] at h
        obtain ⟨h1, h2, h3⟩ := readComponents_sound t hr ⟨rfl, Or.inl rfl, by simp⟩
        by_cases hc : 0 < r.coefficients.length ∧ r.coefficients.length = r.combiSpaces.length
        · simp only [Outcome.bind] at h
          rw [if_pos hc] at h
          injection h with h
          subst h
          refine ⟨?_, h1, h2.imp id List.length_eq_zero_iff.1, h3⟩
          intro h0
          have h4 := hc.2
          rw [h0, List.length_nil] at h4
          exact absurd h4 (by omega)
        · simp only [Outcome.bind] at h
          rw [if_neg hc] at h
          cases h
  · cases h

/-- Group numbers in the file, from 0 to the number of groups minus 1, each at least once: every group runs
exactly the grids with its number, in the order of the file, with their coefficients; the task numbers are
their positions in the file. The number `running` of groups that run does not matter. Missing: a file for more
groups than run (`C101_moreGroups_violated`) and a group without a grid (`C101_noGrid_violated`). -/
theorem C101_assigned_partial (dim : ℕ) (lmin lmax : List ℤ) (hb : GoodBounds dim lmin lmax) (t : SchemeTree)
    (grids : List (K × List ℤ × Option ℤ))
    (ht : List.Forall₂ (fun c e => c.1 = "" ∧ Describes readReal c.2 e) t grids)
    (hl : ∀ e ∈ grids, List.Forall₂ (· ≤ ·) lmin e.2.1 ∧ List.Forall₂ (· ≤ ·) e.2.1 lmax)
    (groups : ℕ) (hg : ∀ e ∈ grids, ∃ g : ℕ, e.2.2 = some (g : ℤ) ∧ g < groups)
    (hall : ∀ g < groups, ∃ e ∈ grids, e.2.2 = some (g : ℤ)) (boundary order : List ℕ) (running g : ℕ)
    (hgr : g < groups) :
    ∃ r, workerStart readReal dim lmin lmax (some t) boundary order running g = .ok r ∧
      r.levels = (grids.filter fun e => decide (e.2.2 = some (g : ℤ))).map (fun e => e.2.1) ∧
      r.coeffs = (grids.filter fun e => decide (e.2.2 = some (g : ℤ))).map Prod.fst ∧
      r.taskNumbers.Pairwise (· < ·) ∧
      ∀ i, i ∈ r.taskNumbers ↔ ∃ e, grids[i]? = some e ∧ e.2.2 = some (g : ℤ) := by
  have hne : grids ≠ [] := by
    intro h0
    obtain ⟨e, he, -⟩ := hall g hgr
    rw [h0] at he
    simp at he
  have hsome : ∀ e ∈ grids, e.2.2 ≠ none := by
    intro e he h0
    obtain ⟨x, hx, -⟩ := hg e he
    rw [h0] at hx
    cases hx
  have hlen := length_filterMap_some grids hsome
  have hget : ∀ i : ℕ, (grids.filterMap fun e => e.2.2)[i]? =
      grids[i]?.bind fun e : K × List ℤ × Option ℤ => e.2.2 := by
    clear hg hall ht hl hlen hne
    induction grids with
    | nil => simp
    | cons e es ih =>
      intro i
      obtain ⟨x, hx⟩ := Option.ne_none_iff_exists'.1 (hsome e (by simp))
      rw [List.filterMap_cons_some (f := fun e : K × List ℤ × Option ℤ => e.2.2) hx]
      cases i with
      | zero => simp [hx]
      | succ i => simpa using ih (fun y hy => hsome y (by simp [hy])) i
  have hmin : minNumber (grids.filterMap fun e => e.2.2) = some 0 := by
    refine minNumber_eq _ ?_ ?_
    · obtain ⟨e, he, h0⟩ := hall 0 (by omega)
      rw [List.mem_filterMap]
      exact ⟨e, he, h0⟩
    · intro x hx
      obtain ⟨e, he, h0⟩ := List.mem_filterMap.1 hx
      obtain ⟨y, hy, -⟩ := hg e he
      rw [h0] at hy
      injection hy with hy
      omega
  set ts := (List.range (grids.filterMap fun e => e.2.2).length).filter fun t =>
    decide ((grids.filterMap fun e => e.2.2)[t]? = some (g : ℤ)) with hts
  have hts2 : ts = (List.range grids.length).filter fun t =>
      (grids[t]?.map fun e => decide (e.2.2 = some (g : ℤ))).getD false := by
    rw [hts, hlen]
    apply List.filter_congr
    intro i _
    rw [hget]
    cases grids[i]? <;> simp
  have hpush := pushGrids_ok grids (grids.filterMap fun e => e.2.2) ts ⟨[], [], []⟩ (by
    intro i hi
    rw [hts2] at hi
    simpa using (List.mem_filter.1 hi).1)
  have hmap : ∀ {β : Type} (f : K × List ℤ × Option ℤ → β), (ts.filterMap fun t => grids[t]?.map f) =
      (grids.filter fun e => decide (e.2.2 = some (g : ℤ))).map f := by
    intro β f
    rw [hts2, ← filterMap_positions grids fun e => decide (e.2.2 = some (g : ℤ)), List.map_filterMap]
  simp only [List.nil_append, hmap] at hpush
  have hfne : (grids.filter fun e => decide (e.2.2 = some (g : ℤ))) ≠ [] := by
    obtain ⟨e, he, h0⟩ := hall g hgr
    exact List.ne_nil_of_mem (List.mem_filter.2 ⟨he, by simp [h0]⟩)
  have hassigned : getAssignedLevels (⟨grids.map Prod.fst, grids.map fun e => e.2.1,
      grids.filterMap fun e => e.2.2⟩ : FileScheme K) (g : ℤ) = .ok
      ⟨(grids.filter fun e => decide (e.2.2 = some (g : ℤ))).map fun e => e.2.1,
        (grids.filter fun e => decide (e.2.2 = some (g : ℤ))).map Prod.fst, ts⟩ := by
    unfold getAssignedLevels
    simp only
    rw [if_pos ⟨by simp, by rw [hlen, List.length_map]⟩, if_neg, if_neg (by rw [hmin]; simp), ← hts, hpush]
    rw [List.isEmpty_iff_length_eq_zero, hlen]
    exact fun h0 => hne (List.length_eq_zero_iff.1 h0)
  refine ⟨⟨(grids.filter fun e => decide (e.2.2 = some (g : ℤ))).map fun e => e.2.1,
    (grids.filter fun e => decide (e.2.2 = some (g : ℤ))).map Prod.fst, ts⟩, ?_, rfl, rfl, ?_, ?_⟩
  · unfold workerStart
    rw [C101_read readReal dim lmin lmax hb t grids ht hne hl (Or.inl hsome)]
    simp only [Outcome.bind]
    rw [if_pos (by rw [hlen]; exact List.length_pos_of_ne_nil hne), hassigned]
    simp only
    rw [if_neg (by simpa using hfne), if_pos]
    refine ⟨by simp, ?_⟩
    have := congrArg List.length (hmap fun e => e.2.1)
    rw [← this]
    have hall' : ∀ i ∈ ts, i < grids.length := by
      intro i hi
      rw [hts2] at hi
      simpa using (List.mem_filter.1 hi).1
    exact length_filterMap_positions grids _ ts hall'
  · simp only
    rw [hts2]
    exact List.Pairwise.filter _ List.pairwise_lt_range
  · intro i
    simp only
    rw [hts2, List.mem_filter, List.mem_range]
    constructor
    · rintro ⟨h1, h2⟩
      rw [List.getElem?_eq_getElem h1] at h2
      exact ⟨_, List.getElem?_eq_getElem h1, by simpa using h2⟩
    · rintro ⟨e, h1, h2⟩
      refine ⟨(List.getElem?_eq_some_iff.1 h1).1, ?_⟩
      rw [h1]
      simp [h2]

/-- No group numbers in the file and at least as many grids as groups: for every order of the grids after
sorting, every grid is run by exactly one group, with its level and its coefficient, and every group runs at
least one. -/
theorem C101_balanced (dim : ℕ) (lmin lmax : List ℤ) (hb : GoodBounds dim lmin lmax) (t : SchemeTree)
    (grids : List (K × List ℤ × Option ℤ))
    (ht : List.Forall₂ (fun c e => c.1 = "" ∧ Describes readReal c.2 e) t grids)
    (hl : ∀ e ∈ grids, List.Forall₂ (· ≤ ·) lmin e.2.1 ∧ List.Forall₂ (· ≤ ·) e.2.1 lmax)
    (hg : ∀ e ∈ grids, e.2.2 = none) (groups : ℕ) (hpos : 0 < groups) (hle : groups ≤ grids.length)
    (boundary order : List ℕ) (ho : order.Perm (List.range grids.length)) :
    ∃ r : ℕ → GroupGrids K,
      (∀ g < groups, workerStart readReal dim lmin lmax (some t) boundary order groups g = .ok (r g) ∧
        (r g).taskNumbers ≠ [] ∧ (r g).taskNumbers.Nodup ∧
        (r g).levels.map some = (r g).taskNumbers.map (fun i => grids[i]?.map fun e => e.2.1) ∧
        (r g).coeffs.map some = (r g).taskNumbers.map fun i => grids[i]?.map Prod.fst) ∧
      (∀ i < grids.length, ∃! g, g < groups ∧ i ∈ (r g).taskNumbers) := by
  have hne : grids ≠ [] := by
    intro h0
    rw [h0, List.length_nil] at hle
    omega
  set dof : ℕ → ℕ := fun t =>
    getCombiDegreesOfFreedom (((grids.map fun e => e.2.1).getD t []).map Int.toNat) boundary with hdof
  have hmemo : ∀ i ∈ order, i < grids.length := fun i hi => by simpa using ho.mem_iff.1 hi
  have hdpos : ∀ i ∈ order, 0 < dof i := by
    intro i hi
    have hi := hmemo i hi
    rw [hdof]
    simp only
    rw [List.getD_eq_getElem _ _ (by simpa using hi), List.getElem_map]
    refine dof_pos _ _ ?_
    intro x hx
    obtain ⟨y, hy, rfl⟩ := List.mem_map.1 hx
    obtain ⟨h1, -⟩ := hl _ (List.getElem_mem hi)
    have hp : ∀ {a b : List ℤ}, List.Forall₂ (· ≤ ·) a b → (∀ x ∈ a, 0 < x) → ∀ x ∈ b, 0 < x := by
      intro a b h
      induction h with
      | nil => simp
      | @cons a b la lb hab _ ih =>
        intro h3 x hx
        rcases List.mem_cons.1 hx with rfl | hx
        · exact (h3 a (by simp)).trans_le hab
        · exact ih (fun y hy => h3 y (by simp [hy])) x hx
    have := hp h1 hb.2.2.1 y hy
    omega
  obtain ⟨-, -, -, a4, a5, -⟩ := loadBalanceLoop_spec dof (order.map dof).sum order
    (fun x hx => List.single_le_sum (by simp) _ (List.mem_map_of_mem hx))
    (List.replicate groups 0) (by intro hc; have := congrArg List.length hc; simp at this; omega) (by
      intro g hg
      simp at hg
      simp [List.getD_eq_getElem?_getD, hg])
  have hnz := loadBalanceLoop_nonempty dof order hdpos (List.replicate groups 0)
    (by intro hc; have := congrArg List.length hc; simp at this; omega)
    (by rw [List.count_replicate_self, ho.length_eq, List.length_range]; exact hle)
  have hlen1 := (loadBalanceLoop_spec dof (order.map dof).sum order
    (fun x hx => List.single_le_sum (by simp) _ (List.mem_map_of_mem hx))
    (List.replicate groups 0) (by intro hc; have := congrArg List.length hc; simp at this; omega) (by
      intro g hg
      simp at hg
      simp [List.getD_eq_getElem?_getD, hg])).1
  set tasks := fun g => getLoadBalancedTasks dof order groups g with htasks
  have hin : ∀ g, ∀ i ∈ tasks g, i < grids.length := by
    intro g i hi
    refine hmemo i ?_
    rw [htasks] at hi
    unfold getLoadBalancedTasks at hi
    obtain ⟨p, hp, rfl⟩ := List.mem_map.1 hi
    rw [← a5]
    exact List.mem_map_of_mem (List.mem_filter.1 hp).1
  have hnonempty : ∀ g < groups, tasks g ≠ [] := by
    intro g hgr h0
    have h4 := a4 g (by simpa using hgr)
    have h5 : getLoadBalancedTasks dof order groups g = [] := h0
    unfold getLoadBalancedTasks at h5
    rw [h5] at h4
    rw [List.length_replicate] at hlen1
    rw [List.getD_eq_getElem _ _ (by rw [hlen1]; exact hgr)] at h4
    refine hnz ?_
    have : (loadBalanceLoop dof order (List.replicate groups 0)).1[g]'(by rw [hlen1]; exact hgr) = 0 := by
      rw [h4]
      simp [List.getD_eq_getElem?_getD, hgr]
    have hm : (loadBalanceLoop dof order (List.replicate groups 0)).1[g]'(by rw [hlen1]; exact hgr) ∈
        (loadBalanceLoop dof order (List.replicate groups 0)).1 := List.getElem_mem _
    rw [this] at hm
    exact hm
  have hread := C101_read readReal dim lmin lmax hb t grids ht hne hl (Or.inr hg)
  refine ⟨fun g => ⟨(tasks g).filterMap fun i => grids[i]?.map fun e => e.2.1,
    (tasks g).filterMap fun i => grids[i]?.map Prod.fst, tasks g⟩, ?_, ?_⟩
  · intro g hgr
    refine ⟨?_, hnonempty g hgr, ?_, ?_, ?_⟩
    · unfold workerStart
      rw [hread]
      simp only [Outcome.bind]
      rw [if_neg (by rw [length_filterMap_none _ hg]; simp)]
      unfold getLoadBalancedLevels
      simp only
      rw [if_pos ⟨by simp, by simpa using hle⟩,
        pushGrids_ok grids (grids.filterMap fun e => e.2.2) (tasks g) ⟨[], [], []⟩ (hin g)]
      simp only [List.nil_append]
      rw [if_neg, if_pos]
      · rw [length_filterMap_positions grids _ _ (hin g), length_filterMap_positions grids _ _ (hin g)]
        exact ⟨rfl, rfl⟩
      · rw [List.isEmpty_iff_length_eq_zero, length_filterMap_positions grids _ _ (hin g)]
        exact fun h0 => hnonempty g hgr (List.length_eq_zero_iff.1 h0)
    · exact (C08_load_balanced_unique dof grids.length groups hpos order ho 0
        (List.length_pos_of_ne_nil hne)).2 g
    · exact map_filterMap_positions grids _ _ (hin g)
    · exact map_filterMap_positions grids _ _ (hin g)
  · intro i hi
    exact (C08_load_balanced_unique dof grids.length groups hpos order ho i hi).1

end

/-! ### The file written by the script -/

section
variable {K : Type} (readReal : String → Option K)

open SchemeGenerator

/-- A level as it is read. -/
def toInts (l : List ℕ) : List ℤ := l.map Int.ofNat

/-- The grids in the file of the script. -/
private def written [IntCast K] (groups : ℕ) (a : ℕ → Dict) : List (K × List ℤ × Option ℤ) :=
  (List.range groups).flatMap fun g =>
    (a g).keys.map fun k => ((((a g).val k : ℤ) : K), toInts k, some (g : ℤ))

private lemma written_filter [IntCast K] (groups : ℕ) (a : ℕ → Dict) (g : ℕ) (hg : g < groups) :
    ((written groups a : List (K × List ℤ × Option ℤ)).filter fun e => decide (e.2.2 = some (g : ℤ))) =
      (a g).keys.map fun k => ((((a g).val k : ℤ) : K), toInts k, some (g : ℤ)) := by
  unfold written
  induction groups with
  | zero => omega
  | succ n ih =>
    rw [List.range_succ, List.flatMap_append, List.filter_append, List.flatMap_singleton]
    have hrest : ∀ n', n' ≤ g → ((List.range n').flatMap fun g => (a g).keys.map fun k =>
        ((((a g).val k : ℤ) : K), toInts k, some (g : ℤ))).filter
          (fun e => decide (e.2.2 = some (g : ℤ))) = [] := by
      intro n' hn'
      rw [List.filter_eq_nil_iff]
      intro e he
      obtain ⟨g', hg', he⟩ := List.mem_flatMap.1 he
      obtain ⟨k, -, rfl⟩ := List.mem_map.1 he
      rw [List.mem_range] at hg'
      simp only [Option.some.injEq, Int.natCast_inj, decide_eq_true_eq]
      omega
    by_cases h : g = n
    · subst h
      rw [hrest g le_rfl, List.nil_append, List.filter_eq_self]
      intro e he
      obtain ⟨k, -, rfl⟩ := List.mem_map.1 he
      simp
    · rw [ih (by omega)]
      have : ((a n).keys.map fun k => ((((a n).val k : ℤ) : K), toInts k, some (n : ℤ))).filter
          (fun e => decide (e.2.2 = some (g : ℤ))) = [] := by
        rw [List.filter_eq_nil_iff]
        intro e he
        obtain ⟨k, -, rfl⟩ := List.mem_map.1 he
        simp only [Option.some.injEq, Int.natCast_inj, decide_eq_true_eq]
        omega
      rw [this, List.append_nil]

private lemma forall₂_cast {a b : List ℕ} (h : VecLe a b) :
    List.Forall₂ (· ≤ ·) (toInts a) (toInts b) := by
  induction h with
  | nil => exact List.Forall₂.nil
  | cons hab _ ih => exact List.Forall₂.cons (Int.ofNat_le.2 hab) ih

/-- The file of the script, for a scheme with at least as many grids as groups: on every process of a group
the levels are those which the script assigned to the group, in that order, with their coefficients.
`readReal` has to read the coefficients as the script wrote them. -/
theorem C101_generated [IntCast K] (coeffText : ℤ → String) (lmin lmax : List ℕ) (hne : lmin ≠ [])
    (hpos : ∀ x ∈ lmin, 0 < x) (hle : VecLe lmin lmax) (hmax : ∀ x ∈ lmax, x < 2 ^ 31) (scheme : Dict)
    (hnd : scheme.keys.Nodup) (hkeys : ∀ k ∈ scheme.keys, VecLe lmin k ∧ VecLe k lmax)
    (htext : ∀ k ∈ scheme.keys, readReal (coeffText (scheme.val k)) = some ((scheme.val k : ℤ) : K))
    (groups : ℕ) (hgpos : 0 < groups) (hg31 : groups ≤ 2 ^ 31) (hgk : groups ≤ scheme.keys.length)
    (boundary order : List ℕ) (g : ℕ) (hg : g < groups) :
    ∃ r, workerStart readReal lmin.length (toInts lmin) (toInts lmax)
        (some (dumpScheme coeffText groups (assign groups scheme))) boundary order groups g = .ok r ∧
      r.levels = (assign groups scheme g).keys.map (fun k => toInts k) ∧
      r.coeffs = (assign groups scheme g).keys.map fun k => ((scheme.val k : ℤ) : K) := by
  obtain ⟨hA, hB⟩ := C83_assign groups hgpos scheme hnd
  have hval : ∀ g, ∀ k ∈ (assign groups scheme g).keys, (assign groups scheme g).val k = scheme.val k := by
    intro g k hk
    obtain ⟨g', -, -, h3, h4⟩ := hA k ((hB g).2 k hk)
    rw [h4 g hk]
    exact h3
  have hbounds : GoodBounds lmin.length (toInts lmin) (toInts lmax) := by
    refine ⟨List.length_pos_of_ne_nil hne, by simp [toInts], ?_, forall₂_cast hle⟩
    intro x hx
    obtain ⟨y, hy, rfl⟩ := List.mem_map.1 hx
    exact Int.natCast_pos.2 (hpos y hy)
  have hsmall : ∀ k ∈ scheme.keys, ∀ x ∈ k, x < 2 ^ 31 := by
    intro k hk x hx
    obtain ⟨i, hi, rfl⟩ := List.mem_iff_getElem.1 hx
    have h2 := (hkeys k hk).2
    have hlen := h2.length_eq
    have := (List.forall₂_iff_get.1 h2).2 i hi (by omega)
    simp only [List.get_eq_getElem] at this
    exact this.trans_lt (hmax _ (List.getElem_mem _))
  have ht : List.Forall₂ (fun c e => c.1 = "" ∧ Describes readReal c.2 e)
      (dumpScheme coeffText groups (assign groups scheme)) (written groups (assign groups scheme)) := by
    unfold dumpScheme written
    have hblock : ∀ n ≤ groups, List.Forall₂ (fun c e => c.1 = "" ∧ Describes readReal c.2 e)
        ((List.range n).flatMap fun g => (assign groups scheme g).keys.map fun level =>
          ("", dumpComponent coeffText g level ((assign groups scheme g).val level)))
        ((List.range n).flatMap fun g => (assign groups scheme g).keys.map fun k =>
          ((((assign groups scheme g).val k : ℤ) : K), toInts k, some (g : ℤ))) := by
      intro n
      induction n with
      | zero => intro _; exact List.Forall₂.nil
      | succ n ih =>
        intro hn
        rw [List.range_succ, List.flatMap_append, List.flatMap_append, List.flatMap_singleton,
          List.flatMap_singleton]
        refine List.rel_append (ih (by omega)) ?_
        rw [List.forall₂_map_left_iff, List.forall₂_map_right_iff, List.forall₂_same]
        intro k hk
        refine ⟨rfl, ⟨coeffText ((assign groups scheme n).val k), []⟩, ⟨"", _⟩, ⟨(n : ℤ).repr, []⟩, ?_, ?_, ?_,
          List.Perm.refl _⟩
        · simp only
          rw [hval n k hk]
          exact htext k ((hB n).2 k hk)
        · simp only
          unfold toInts
          rw [List.forall₂_map_left_iff, List.forall₂_map_right_iff, List.forall₂_same]
          intro x hx
          have := hsmall k ((hB n).2 k hk) x hx
          exact getInt_repr (x : ℤ) (by omega) (by omega)
        · intro g' hg'
          simp only [Option.some.injEq] at hg'
          subst hg'
          exact getInt_repr (n : ℤ) (by omega) (by omega)
    exact hblock groups le_rfl
  have hmemw : ∀ e ∈ (written groups (assign groups scheme) : List (K × List ℤ × Option ℤ)),
      ∃ g < groups, ∃ k ∈ (assign groups scheme g).keys,
        e = ((((assign groups scheme g).val k : ℤ) : K), toInts k, some (g : ℤ)) := by
    intro e he
    obtain ⟨g, hg, he⟩ := List.mem_flatMap.1 he
    obtain ⟨k, hk, rfl⟩ := List.mem_map.1 he
    exact ⟨g, List.mem_range.1 hg, k, hk, rfl⟩
  have hnonempty : ∀ g < groups, (assign groups scheme g).keys ≠ [] := by
    intro g hg h0
    have hord := nodup_order scheme hnd
    have hlen : (SchemeGenerator.order scheme).length = scheme.keys.length :=
      ((List.perm_ext_iff_of_nodup hord hnd).2 (mem_order scheme)).length_eq
    rw [assign_eq, ((deal groups scheme (SchemeGenerator.order scheme) hord).1 g).1] at h0
    have hgl : g < (SchemeGenerator.order scheme).length := by omega
    have hin : (SchemeGenerator.order scheme)[g] ∈ dealt groups g (SchemeGenerator.order scheme) := by
      unfold dealt
      rw [List.mem_map]
      refine ⟨((SchemeGenerator.order scheme)[g], g), ?_, rfl⟩
      rw [List.mem_filter, List.mem_zipIdx_iff_getElem?, decide_eq_true_eq]
      exact ⟨List.getElem?_eq_getElem hgl, Nat.mod_eq_of_lt hg⟩
    rw [h0] at hin
    simp at hin
  obtain ⟨r, h1, h2, h3, -, -⟩ := C101_assigned_partial readReal lmin.length (toInts lmin) (toInts lmax) hbounds _ _ ht
    (by
      intro e he
      obtain ⟨g, -, k, hk, rfl⟩ := hmemw e he
      obtain ⟨h1, h2⟩ := hkeys k ((hB g).2 k hk)
      exact ⟨forall₂_cast h1, forall₂_cast h2⟩) groups
    (by
      intro e he
      obtain ⟨g, hg, k, hk, rfl⟩ := hmemw e he
      exact ⟨g, rfl, hg⟩)
    (by
      intro g hg
      obtain ⟨k, hk⟩ := List.exists_mem_of_ne_nil _ (hnonempty g hg)
      exact ⟨_, List.mem_flatMap.2 ⟨g, List.mem_range.2 hg, List.mem_map_of_mem hk⟩, rfl⟩) boundary order groups g hg
  refine ⟨r, h1, ?_, ?_⟩
  · rw [h2, written_filter groups _ g hg, List.map_map]
    rfl
  · rw [h3, written_filter groups _ g hg, List.map_map]
    apply List.map_congr_left
    intro k hk
    simp only [Function.comp]
    rw [hval g k hk]

/-- The sum of the coefficients of the grids of a group whose level is at least `k`. -/
def countAbove [AddMonoid K] (k : List ℕ) (r : GroupGrids K) : K :=
  (((r.levels.zip r.coeffs).filter fun p => leVecZ (toInts k) p.1).map Prod.snd).sum

private lemma forall₂_cast_iff (a b : List ℕ) : leVecZ (toInts a) (toInts b) = decide (VecLe a b) := by
  by_cases h : VecLe a b
  · rw [(leVecZ_iff _ _).2 (forall₂_cast h)]
    simp [h]
  · rw [Bool.eq_iff_iff, leVecZ_iff]
    simp only [h, decide_false, Bool.false_eq_true, iff_false]
    intro hc
    apply h
    unfold toInts at hc
    rw [List.forall₂_map_left_iff, List.forall₂_map_right_iff] at hc
    exact hc.imp fun _ _ hab => Int.ofNat_le.1 hab

private lemma sum_cast [Ring K] (l : List ℤ) : ((l.sum : ℤ) : K) = (l.map fun x : ℤ => (x : K)).sum := by
  induction l with
  | nil => simp
  | cons a l ih => simp [ih]

/-- Over all groups that read the file of the script, the coefficients of the grids above a subspace sum up to
what they sum up to in the scheme of the script. -/
theorem C101_counted [Ring K] (coeffText : ℤ → String) (lmin lmax : List ℕ) (hne : lmin ≠ [])
    (hpos : ∀ x ∈ lmin, 0 < x) (hle : VecLe lmin lmax) (hmax : ∀ x ∈ lmax, x < 2 ^ 31) (scheme : Dict)
    (hnd : scheme.keys.Nodup) (hkeys : ∀ k ∈ scheme.keys, VecLe lmin k ∧ VecLe k lmax)
    (htext : ∀ k ∈ scheme.keys, readReal (coeffText (scheme.val k)) = some ((scheme.val k : ℤ) : K))
    (groups : ℕ) (hgpos : 0 < groups) (hg31 : groups ≤ 2 ^ 31) (hgk : groups ≤ scheme.keys.length)
    (boundary order : List ℕ) :
    ∃ r : ℕ → GroupGrids K, (∀ g < groups, workerStart readReal lmin.length (toInts lmin) (toInts lmax)
        (some (dumpScheme coeffText groups (assign groups scheme))) boundary order groups g = .ok (r g)) ∧
      ∀ k, ((List.range groups).map fun g => countAbove k (r g)).sum =
        ((((scheme.keys.filter fun l => decide (VecLe k l)).map scheme.val).sum : ℤ) : K) := by
  have hgen := C101_generated readReal coeffText lmin lmax hne hpos hle hmax scheme hnd hkeys htext groups hgpos
    hg31 hgk boundary order
  obtain ⟨hA, hB⟩ := C83_assign groups hgpos scheme hnd
  have : Nonempty (GroupGrids K) := ⟨⟨[], [], []⟩⟩
  choose! r hr1 hr2 hr3 using hgen
  refine ⟨r, hr1, fun k => ?_⟩
  have hone : ∀ g < groups, countAbove k (r g) =
      (((assign groups scheme g).keys.filter fun l => decide (VecLe k l)).map
        fun l => ((scheme.val l : ℤ) : K)).sum := by
    intro g hg
    unfold countAbove
    rw [hr2 g hg, hr3 g hg]
    congr 1
    generalize (assign groups scheme g).keys = L
    induction L with
    | nil => rfl
    | cons a L ih =>
      simp only [List.map_cons, List.zip_cons_cons]
      rw [List.filter_cons, List.filter_cons, forall₂_cast_iff]
      split
      · simp only [List.map_cons, ih]
      · exact ih
  have hperm : ((List.range groups).flatMap fun g => (assign groups scheme g).keys).Perm scheme.keys := by
    refine (List.perm_ext_iff_of_nodup ?_ hnd).2 ?_
    · rw [List.nodup_flatMap]
      refine ⟨fun g _ => (hB g).1, ?_⟩
      refine List.nodup_range.imp ?_
      intro g g' hgg l h1 h2
      obtain ⟨g0, -, -, -, h5⟩ := hA l ((hB g).2 l h1)
      exact hgg ((h5 g h1).trans (h5 g' h2).symm)
    · intro l
      rw [List.mem_flatMap]
      constructor
      · rintro ⟨g, -, h⟩
        exact (hB g).2 l h
      · intro h
        obtain ⟨g, h1, h2, -, -⟩ := hA l h
        exact ⟨g, List.mem_range.2 h1, h2⟩
  rw [sum_cast, List.map_map, ← ((hperm.filter _).map _).sum_eq, List.filter_flatMap, List.map_flatMap]
  have : ∀ (L : List ℕ) (f : ℕ → List K), (L.flatMap f).sum = (L.map fun g => (f g).sum).sum := by
    intro L f
    induction L with
    | nil => rfl
    | cons a L ih => simp [List.flatMap_cons, ih]
  rw [this]
  congr 1
  apply List.map_congr_left
  intro g hg
  rw [hone g (List.mem_range.1 hg)]
  rfl

/-- From the script to the groups: the same difference of at least the dimension between `lmax` and `lmin` in
all dimensions, at most as many groups as grids. Every subspace of a grid on the last diagonal is counted
exactly once by the coefficients of all groups together. -/
theorem C101_script [Ring K] (coeffText : ℤ → String)
    (htext : ∀ c : ℤ, readReal (coeffText c) = some (c : K)) (fuel : ℕ) (lmin : List ℕ) (hne : lmin ≠ [])
    (hpos : ∀ x ∈ lmin, 0 < x) (c : ℕ) (hc : lmin.length ≤ c) (hmax : ∀ x ∈ lmin, x + c < 2 ^ 31)
    (active : List (List ℕ)) :
    ∃ d, updateDict fuel lmin (lmin.map (· + c)) active = .ok d ∧
      ∀ (groups : ℕ) (boundary order : List ℕ), 0 < groups → groups ≤ 2 ^ 31 → groups ≤ d.keys.length →
      ∃ r : ℕ → GroupGrids K, (∀ g < groups, workerStart readReal lmin.length (toInts lmin)
          (toInts (lmin.map (· + c))) (some (dumpScheme coeffText groups (assign groups d))) boundary order
          groups g = .ok (r g)) ∧
        ∀ k, (∃ a, VecLe lmin a ∧ a.sum = lmin.sum + c ∧ VecLe k a) →
          ((List.range groups).map fun g => countAbove k (r g)).sum = 1 := by
  obtain ⟨d, h1, h2, h3, h4, h5⟩ := C83_uniform fuel lmin hne c hc active
  refine ⟨d, h1, ?_⟩
  intro groups boundary order hg0 hg1 hg2
  have hle : VecLe lmin (lmin.map (· + c)) := by
    clear h1 h2 h3 h4 h5 hne hpos hc hmax
    induction lmin with
    | nil => exact List.Forall₂.nil
    | cons a l ih => exact List.Forall₂.cons (by simp) ih
  obtain ⟨r, hr1, hr2⟩ := C101_counted readReal coeffText lmin (lmin.map (· + c)) hne hpos hle (by
      intro x hx
      obtain ⟨y, hy, rfl⟩ := List.mem_map.1 hx
      exact hmax y hy) d h2 (fun k hk => ⟨((h3 k).1 hk).1, (h4 k hk).1⟩) (fun k _ => htext _) groups hg0 hg1 hg2
      boundary order
  refine ⟨r, hr1, ?_⟩
  intro k hk
  rw [hr2 k]
  have := h5 k hk
  unfold Dict.above at this
  rw [this]
  exact Int.cast_one

end

/-! ### What is not checked -/

/-- A grid of group `i` with one entry in its level. -/
private def lineComponent (i : ℕ) : Component :=
  [("coeff", ⟨"1", []⟩), ("level", ⟨"", [((i : ℤ) + 1).repr]⟩), ("group_no", ⟨(i : ℤ).repr, []⟩)]

/-- The numbers of the groups in the file are not compared with the number of groups that run: for every number
of groups there is a file such that all of them start, without an error, and a grid of the file is run by
none. -/
theorem C101_moreGroups_violated {K : Type} [One K] (readReal : String → Option K)
    (h1 : readReal "1" = some 1) (n : ℕ) (hn : 0 < n) (hn31 : n + 1 < 2 ^ 31) (boundary order : List ℕ) :
    ∃ (lmin lmax : List ℤ) (t : SchemeTree) (r : ℕ → GroupGrids K) (level : List ℤ),
      (∀ g < n, workerStart readReal 1 lmin lmax (some t) boundary order n g = .ok (r g)) ∧
      (∃ s, readScheme readReal 1 lmin lmax (some t) = .ok s ∧ level ∈ s.combiSpaces) ∧
      ∀ g < n, level ∉ (r g).levels := by
  let grids : List (K × List ℤ × Option ℤ) :=
    (List.range (n + 1)).map fun i => (1, [((i : ℕ) : ℤ) + 1], some (i : ℤ))
  let t : SchemeTree := (List.range (n + 1)).map fun i => ("", lineComponent i)
  have hb : GoodBounds 1 [1] [(n : ℤ) + 1] := by
    refine ⟨by omega, rfl, by simp, List.Forall₂.cons (by omega) List.Forall₂.nil⟩
  have hmem : ∀ e ∈ grids, ∃ i : ℕ, i ≤ n ∧ e = (1, [(i : ℤ) + 1], some (i : ℤ)) := by
    intro e he
    obtain ⟨i, hi, rfl⟩ := List.mem_map.1 he
    rw [List.mem_range] at hi
    exact ⟨i, by omega, rfl⟩
  have ht : List.Forall₂ (fun c e => c.1 = "" ∧ Describes readReal c.2 e) t grids := by
    rw [List.forall₂_map_left_iff, List.forall₂_map_right_iff, List.forall₂_same]
    intro i hi
    rw [List.mem_range] at hi
    refine ⟨rfl, ⟨"1", []⟩, ⟨"", [((i : ℤ) + 1).repr]⟩, ⟨(i : ℤ).repr, []⟩, h1, ?_, ?_, List.Perm.refl _⟩
    · exact List.Forall₂.cons (getInt_repr ((i : ℤ) + 1) (by omega) (by omega)) List.Forall₂.nil
    · intro g hg
      simp only [Option.some.injEq] at hg
      subst hg
      exact getInt_repr (i : ℤ) (by omega) (by omega)
  have hl : ∀ e ∈ grids, List.Forall₂ (· ≤ ·) [1] e.2.1 ∧ List.Forall₂ (· ≤ ·) e.2.1 [(n : ℤ) + 1] := by
    intro e he
    obtain ⟨i, hi, rfl⟩ := hmem e he
    exact ⟨List.Forall₂.cons (by omega) List.Forall₂.nil, List.Forall₂.cons (by omega) List.Forall₂.nil⟩
  have hass := C101_assigned_partial readReal 1 [1] [(n : ℤ) + 1] hb t grids ht hl (n + 1)
    (by
      intro e he
      obtain ⟨i, hi, rfl⟩ := hmem e he
      exact ⟨i, rfl, by omega⟩)
    (by
      intro g hg
      exact ⟨_, List.mem_map_of_mem (List.mem_range.2 hg), rfl⟩) boundary order n
  have : Nonempty (GroupGrids K) := ⟨⟨[], [], []⟩⟩
  choose! r hr1 hr2 hr3 hr4 hr5 using hass
  refine ⟨[1], [(n : ℤ) + 1], t, r, [(n : ℤ) + 1], fun g hg => hr1 g (by omega), ⟨_, C101_read readReal 1 [1]
    [(n : ℤ) + 1] hb t grids ht ?_ hl (Or.inl ?_), ?_⟩, ?_⟩
  · intro h0
    have := congrArg List.length h0
    simp [grids] at this
  · intro e he
    obtain ⟨i, hi, rfl⟩ := hmem e he
    simp
  · refine List.mem_map.2 ⟨_, List.mem_map_of_mem (List.mem_range.2 (Nat.lt_succ_self n)), rfl⟩
  · intro g hg hc
    rw [hr2 g (by omega)] at hc
    obtain ⟨e, he, hle⟩ := List.mem_map.1 hc
    obtain ⟨he1, he2⟩ := List.mem_filter.1 he
    obtain ⟨i, hi, rfl⟩ := hmem e he1
    simp only [decide_eq_true_eq, Option.some.injEq] at he2
    simp only [List.cons.injEq, and_true] at hle
    omega

/-- A group without a grid in the file does not start, whatever the other groups have. -/
theorem C101_noGrid_violated {K : Type} (readReal : String → Option K) (dim : ℕ) (lmin lmax : List ℤ)
    (t : SchemeTree) (s : FileScheme K) (hs : readScheme readReal dim lmin lmax (some t) = .ok s)
    (hsome : s.groupNumbers ≠ []) (h0 : minNumber s.groupNumbers = some 0) (g : ℕ)
    (hg : (g : ℤ) ∉ s.groupNumbers) (boundary order : List ℕ) (groups : ℕ) :
    workerStart readReal dim lmin lmax (some t) boundary order groups g = .stuck := by
  obtain ⟨h1, h2, h3, -⟩ := C101_accepted readReal dim lmin lmax _ s hs
  unfold workerStart
  rw [hs]
  simp only [Outcome.bind]
  rw [if_pos (List.length_pos_of_ne_nil hsome)]
  unfold getAssignedLevels
  rw [if_pos ⟨h2.symm, by rw [h2]; exact h3.resolve_right hsome⟩, if_neg (by simpa using hsome),
    if_neg (by rw [h0]; simp)]
  have hf : (List.range s.groupNumbers.length).filter
      (fun t => decide (s.groupNumbers[t]? = some (g : ℤ))) = [] := by
    rw [List.filter_eq_nil_iff]
    intro i _ hc
    rw [decide_eq_true_eq] at hc
    exact hg (List.mem_of_getElem? hc)
  rw [hf]
  rfl

/-! ### Examples -/

/-- Coefficients that are written as integers. -/
def readIntAsReal (s : String) : Option ℤ := s.toInt?

/-- A file with two grids without group numbers. -/
def plainFile : SchemeTree :=
  [("", [("level", ⟨"", ["1", "2"]⟩), ("coeff", ⟨"1", []⟩)]),
    ("", [("coeff", ⟨"-1", []⟩), ("level", ⟨"", ["1", "1"]⟩)])]

/-- A file with three grids for two groups. -/
def groupFile : SchemeTree :=
  [("", [("level", ⟨"", ["1", "2"]⟩), ("coeff", ⟨"1", []⟩), ("group_no", ⟨"1", []⟩)]),
    ("", [("coeff", ⟨"-1", []⟩), ("level", ⟨"", ["1", "1"]⟩), ("group_no", ⟨"0", []⟩)]),
    ("", [("group_no", ⟨"1", []⟩), ("coeff", ⟨"1", []⟩), ("level", ⟨"", ["2", "1"]⟩)])]

private lemma int0 : getInt "0" = some 0 := getInt_repr 0 (by decide) (by decide)
private lemma int1 : getInt "1" = some 1 := getInt_repr 1 (by decide) (by decide)
private lemma int2 : getInt "2" = some 2 := getInt_repr 2 (by decide) (by decide)
private lemma real1 : readIntAsReal "1" = some 1 := Int.toInt?_repr 1
private lemma realM1 : readIntAsReal "-1" = some (-1) := by
  have h : (-1 : ℤ).repr = "-1" := by decide +kernel
  rw [← h]
  exact Int.toInt?_repr (-1)

lemma plainFile_describes : List.Forall₂ (fun c e => c.1 = "" ∧ Describes readIntAsReal c.2 e) plainFile
    [(1, [1, 2], none), (-1, [1, 1], none)] := by
  refine List.Forall₂.cons ⟨rfl, ⟨"1", []⟩, ⟨"", ["1", "2"]⟩, ⟨"", []⟩, real1,
    List.Forall₂.cons int1 (List.Forall₂.cons int2 List.Forall₂.nil), by simp, List.Perm.swap _ _ _⟩ ?_
  exact List.Forall₂.cons ⟨rfl, ⟨"-1", []⟩, ⟨"", ["1", "1"]⟩, ⟨"", []⟩, realM1,
    List.Forall₂.cons int1 (List.Forall₂.cons int1 List.Forall₂.nil), by simp, List.Perm.refl _⟩ List.Forall₂.nil

lemma groupFile_describes : List.Forall₂ (fun c e => c.1 = "" ∧ Describes readIntAsReal c.2 e) groupFile
    [(1, [1, 2], some 1), (-1, [1, 1], some 0), (1, [2, 1], some 1)] := by
  refine List.Forall₂.cons ⟨rfl, ⟨"1", []⟩, ⟨"", ["1", "2"]⟩, ⟨"1", []⟩, real1,
    List.Forall₂.cons int1 (List.Forall₂.cons int2 List.Forall₂.nil), ?_, List.Perm.swap _ _ _⟩ ?_
  · rintro g ⟨⟩; exact int1
  refine List.Forall₂.cons ⟨rfl, ⟨"-1", []⟩, ⟨"", ["1", "1"]⟩, ⟨"0", []⟩, realM1,
    List.Forall₂.cons int1 (List.Forall₂.cons int1 List.Forall₂.nil), ?_, List.Perm.refl _⟩ ?_
  · rintro g ⟨⟩; exact int0
  refine List.Forall₂.cons ⟨rfl, ⟨"1", []⟩, ⟨"", ["2", "1"]⟩, ⟨"1", []⟩, real1,
    List.Forall₂.cons int2 (List.Forall₂.cons int1 List.Forall₂.nil), ?_, by decide⟩ List.Forall₂.nil
  rintro g ⟨⟩; exact int1

lemma goodBounds22 : GoodBounds 2 [1, 1] [2, 2] := by
  unfold GoodBounds
  decide

example : readScheme readIntAsReal 2 [1, 1] [2, 2] (some plainFile) = .ok ⟨[1, -1], [[1, 2], [1, 1]], []⟩ :=
  C101_read readIntAsReal 2 [1, 1] [2, 2] goodBounds22 plainFile _ plainFile_describes (by decide) (by decide)
    (Or.inr (by decide))

example : ∃ r, workerStart readIntAsReal 2 [1, 1] [2, 2] (some groupFile) [2, 2] [] 2 1 = .ok r ∧
    r.levels = [[1, 2], [2, 1]] ∧ r.coeffs = [1, 1] := by
  obtain ⟨r, h1, h2, h3, -⟩ := C101_assigned_partial readIntAsReal 2 [1, 1] [2, 2] goodBounds22 groupFile _
    groupFile_describes (by decide) 2
    (by
      intro e he
      simp only [List.mem_cons, List.not_mem_nil, or_false] at he
      rcases he with rfl | rfl | rfl
      · exact ⟨1, rfl, by decide⟩
      · exact ⟨0, rfl, by decide⟩
      · exact ⟨1, rfl, by decide⟩)
    (by decide) [2, 2] [] 2 1 (by decide)
  exact ⟨r, h1, h2, h3⟩

example : ∃ r : ℕ → GroupGrids ℤ, (∀ g < 2, workerStart readIntAsReal 2 [1, 1] [2, 2] (some plainFile) [2, 2]
    [0, 1] 2 g = .ok (r g)) ∧ ∀ i < 2, ∃! g, g < 2 ∧ i ∈ (r g).taskNumbers := by
  obtain ⟨r, h1, h2⟩ := C101_balanced readIntAsReal 2 [1, 1] [2, 2] goodBounds22 plainFile _
    plainFile_describes (by decide) (by decide) 2 (by decide) (by decide) [2, 2] [0, 1] (by decide)
  exact ⟨r, fun g hg => (h1 g hg).1, h2⟩

/-- Integers written and read as coefficients: the hypothesis on the texts of the coefficients. -/
example : ∀ c : ℤ, readIntAsReal c.repr = some c := Int.toInt?_repr

/-- The scheme of the script between (1,2) and (4,5) has enough grids for three groups. -/
example : ∃ d, SchemeGenerator.updateDict 0 [1, 2] ([1, 2].map (· + 3)) [] = .ok d ∧ 3 ≤ d.keys.length ∧
    (SchemeGenerator.assign 3 d 1).keys = [[2, 4], [1, 4]] := ⟨_, rfl, by decide +kernel, by decide +kernel⟩

example : (2 : ℤ) ∉ ([1, 0, 1] : List ℤ) ∧ minNumber [1, 0, 1] = some 0 := by decide

end Verif.SchemeFile
