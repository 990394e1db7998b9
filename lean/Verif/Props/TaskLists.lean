import Verif.Lemmas.TaskLists
import Verif.Lemmas.Runs
import Verif.Props.Rescheduler

/-!
# Tasks are never lost or duplicated (C41)
-/

namespace Verif.TaskLists

/-- The groups hold exactly the tasks `ts`, each once and in one group; the list on the workers of each
group is the manager's list for the group, in the same order. -/
def Holds (ts : List Task) (m : Manager) : Prop :=
  (∀ g ∈ m.groups, g.worker = g.container) ∧ (m.groups.flatMap Group.worker).Perm ts ∧
    m.tasks.Perm ts

/-- The groups with the given failure flags. -/
def withStatus (gs : List Group) (bs : List Bool) : List Group :=
  gs.zipWith (fun g b => { g with failed := b }) bs

/-- What happens to the task lists after the first run. -/
inductive Event : Manager → Manager → Prop where
  /-- Running, combining, and everything else that does not touch the task lists; groups may fail. -/
  | work (m : Manager) (failed : List Bool) :
      Event m { m with groups := withStatus m.groups (failed ++ List.replicate m.groups.length false) }
  /-- Rescheduling, no group having failed. -/
  | resched (m m' : Manager) (moves : List (List ℤ × ℕ)) (hs : ∀ g ∈ m.groups, g.failed = false)
      (h : reschedule moves m = .ok m') : Event m m'
  /-- Groups have failed and could not be restored; their tasks are redistributed or recomputed. -/
  | lost (m m1 m2 m3 : Manager) (ids1 ids2 choice1 choice2 : List ℕ)
      (hids : (ids1 ++ ids2).Perm (faultIDs m)) (h1 : eraseFailed m = .ok m1)
      (h2 : redistribute ids1 choice1 m1 = .ok m2) (h3 : redistribute ids2 choice2 m2 = .ok m3) :
      Event m m3
  /-- Groups have failed and were restored; they are initialised again, without the tasks that are to
  be recomputed, which are handed out anew. -/
  | restored (m m2 : Manager) (recovered ignore choice : List ℕ)
      (hrec : ∀ i g, m.groups[i]? = some g → g.failed = true → i ∈ recovered)
      (hign : ∀ id ∈ ignore, id ∈ faultIDs m) (hnd : ignore.Nodup)
      (h2 : redistribute ignore choice (reInitializeGroups recovered ignore m) = .ok m2) :
      Event m m2

/-! ## Helper lemmas -/

lemma flatMap_congr' {gs : List Group} (h : ∀ g ∈ gs, g.worker = g.container) :
    gs.flatMap Group.worker = gs.flatMap Group.container := by
  induction gs with
  | nil => rfl
  | cons g gs ih =>
    rw [List.flatMap_cons, List.flatMap_cons, h g List.mem_cons_self,
      ih fun x hx => h x (List.mem_cons_of_mem _ hx)]

lemma holds_iff {ts : List Task} {m : Manager} :
    Holds ts m ↔ Agree m ∧ (held m).Perm ts ∧ m.tasks.Perm ts := by
  unfold Holds Agree held
  constructor
  · rintro ⟨h1, h2, h3⟩
    rw [flatMap_congr' h1] at h2
    exact ⟨h1, h2, h3⟩
  · rintro ⟨h1, h2, h3⟩
    rw [← flatMap_congr' h1] at h2
    exact ⟨h1, h2, h3⟩

lemma work_groups (gs : List Group) (bs : List Bool) (hb : gs.length ≤ bs.length) :
    (withStatus gs bs).flatMap Group.container =
        gs.flatMap Group.container ∧
      ((∀ g ∈ gs, g.worker = g.container) →
        ∀ g ∈ withStatus gs bs, g.worker = g.container) := by
  unfold withStatus
  induction gs generalizing bs with
  | nil => simp
  | cons g gs ih =>
    cases bs with
    | nil => simp at hb
    | cons b bs =>
      obtain ⟨h1, h2⟩ := ih bs (by simpa using hb)
      constructor
      · simp only [List.zipWith_cons_cons, List.flatMap_cons, h1]
      · intro h x hx
        rw [List.zipWith_cons_cons] at hx
        rcases List.mem_cons.mp hx with rfl | hx
        · exact h g List.mem_cons_self
        · exact h2 (fun y hy => h y (List.mem_cons_of_mem _ hy)) x hx

lemma filter_flatMap_groups (gs : List Group) (p : Task → Bool) :
    (gs.flatMap Group.container).filter p = gs.flatMap fun g => g.container.filter p := by
  rw [List.filter_flatMap]

lemma reInit_flatMap (recovered ignore : List ℕ) (gs : List Group) (k : ℕ)
    (hn : ∀ g ∈ gs, g.container.Nodup)
    (h : ∀ i g, gs[i]? = some g → k + i ∉ recovered → ∀ t ∈ g.container, t.id ∉ ignore) :
    (gs.mapIdx fun i g => if k + i ∈ recovered
        then ({ g with failed := false } : Group).reInitialize ignore else g).flatMap
        Group.container =
      gs.flatMap fun g => g.container.filter fun t => !(ignore.contains t.id) := by
  induction gs generalizing k with
  | nil => rfl
  | cons g gs ih =>
    rw [List.mapIdx_cons, List.flatMap_cons, List.flatMap_cons]
    have h0 : (if k + 0 ∈ recovered then ({ g with failed := false } : Group).reInitialize ignore
        else g).container = g.container.filter fun t => !(ignore.contains t.id) := by
      by_cases hk : k + 0 ∈ recovered
      · rw [if_pos hk, reInitialize_container]
        exact hn g List.mem_cons_self
      · rw [if_neg hk]
        have := h 0 g (by simp) hk
        symm
        rw [List.filter_eq_self]
        intro t ht
        simpa using this t ht
    rw [h0]
    congr 1
    have := ih (k + 1) (fun x hx => hn x (List.mem_cons_of_mem _ hx)) (by
      intro i x hx hi
      exact h (i + 1) x (by simpa using hx) (by rw [show k + (i + 1) = k + 1 + i by omega]; exact hi))
    rw [← this]
    congr 1
    have hk : ∀ i, k + (i + 1) = k + 1 + i := fun i => by omega
    exact congrArg (fun f => List.mapIdx f gs) (funext fun i => by rw [hk i])

lemma held_nodup {ts : List Task} {m : Manager} (hn : (ts.map Task.id).Nodup)
    (h : (held m).Perm ts) :
    ((held m).map Task.id).Nodup ∧ ∀ g ∈ m.groups, g.container.Nodup := by
  have h1 : ((held m).map Task.id).Nodup := (h.map Task.id).nodup_iff.mpr hn
  refine ⟨h1, ?_⟩
  have h2 : (held m).Nodup := h1.of_map
  unfold held at h2
  rw [List.nodup_flatMap] at h2
  exact h2.1

/-- Every event keeps the tasks. -/
theorem event_holds {ts : List Task} {m m' : Manager} (hn : (ts.map Task.id).Nodup)
    (h : Holds ts m) (he : Event m m') : Holds ts m' := by
  rw [holds_iff] at h ⊢
  obtain ⟨ha, hp, ht⟩ := h
  obtain ⟨hn1, hn2⟩ := held_nodup hn hp
  cases he with
  | work failed =>
    obtain ⟨h1, h2⟩ := work_groups m.groups (failed ++ List.replicate m.groups.length false)
      (by simp)
    refine ⟨h2 ha, ?_, ht⟩
    unfold held at hp ⊢
    simp only
    rw [h1]
    exact hp
  | resched _ moves hs hr =>
    unfold reschedule at hr
    obtain ⟨m1, h1, h2⟩ := ok_bind hr
    simp only [Outcome.ok.injEq] at h2
    subst h2
    obtain ⟨b1, b2, b3⟩ := reschedLoop_spec ha hs hn1 h1
    exact ⟨b1, b3.trans hp, b3.trans hp⟩
  | lost m1 m2 _ ids1 ids2 choice1 choice2 hids h1 h2 h3 =>
    unfold eraseFailed at h1
    split_ifs at h1
    simp only [Outcome.ok.injEq] at h1
    subst h1
    have ha1 : Agree { m with groups := m.groups.filter fun g => !g.failed } := by
      intro g hg
      exact ha g (List.mem_of_mem_filter hg)
    have hs1 : Sound { m with groups := m.groups.filter fun g => !g.failed } := by
      intro g hg
      have := (List.mem_filter.mp hg).2
      simpa using this
    obtain ⟨a1, a2, a3, f1, a4, a5, a6⟩ := redistribute_spec ha1 hs1 h2
    obtain ⟨b1, b2, b3, f2, b4, b5, b6⟩ := redistribute_spec a1 a2 h3
    refine ⟨b1, ?_, by rw [b3, a3]; exact ht⟩
    set lostTasks := (m.groups.filter fun g => g.failed).flatMap Group.container with hl
    have hsplit : (held m).Perm
        (lostTasks ++ held { m with groups := m.groups.filter fun g => !g.failed }) := by
      have := (List.filter_append_perm (fun g : Group => g.failed) m.groups).symm.flatMap_right
        Group.container
      rw [List.flatMap_append] at this
      exact this
    have hfault : faultIDs m = lostTasks.map Task.id := by
      rw [hl, List.map_flatMap]
      rfl
    have hl' : (f1 ++ f2).Perm lostTasks := by
      have htn : (m.tasks.map Task.id).Nodup := (ht.map Task.id).nodup_iff.mpr hn
      have hln : (lostTasks.map Task.id).Nodup := by
        have := (hsplit.map Task.id).nodup_iff.mp hn1
        rw [List.map_append, List.nodup_append] at this
        exact this.1
      have e : (f1 ++ f2).map Task.id = ids1 ++ ids2 := by rw [List.map_append, a4, b4]
      refine perm_of_ids htn ?_ ?_ ?_ ?_
      · intro t hm
        rcases List.mem_append.mp hm with hm | hm
        · exact a5 t hm
        · have := b5 t hm
          rwa [a3] at this
      · intro t hm
        have : t ∈ held m := hsplit.mem_iff.mpr (List.mem_append_left _ hm)
        exact ht.mem_iff.mpr (hp.mem_iff.mp this)
      · rw [e]
        rw [hfault] at hids
        exact hids.nodup_iff.mpr hln
      · rw [e, ← hfault]
        exact hids
    refine b6.trans ?_
    refine (List.Perm.append_left f2 a6).trans ?_
    refine List.Perm.trans ?_ hp
    refine List.Perm.trans ?_ hsplit.symm
    rw [← List.append_assoc]
    exact List.Perm.append_right _ (List.perm_append_comm.trans hl')
  | restored _ recovered ignore choice hrec hign hnd h2 =>
    have hfilter : held (reInitializeGroups recovered ignore m) =
        (held m).filter fun t => !(ignore.contains t.id) := by
      have := reInit_flatMap recovered ignore m.groups 0 hn2 (by
        intro i g hg hi t htm hin
        have hfa := hign t.id hin
        -- the task with this id is in a failed group, which is recovered
        unfold faultIDs at hfa
        obtain ⟨g', hg', hg''⟩ := List.mem_flatMap.mp hfa
        obtain ⟨t', ht', hid⟩ := List.mem_map.mp hg''
        obtain ⟨hg1, hg2⟩ := List.mem_filter.mp hg'
        obtain ⟨j, hj, hjg⟩ := List.getElem_of_mem hg1
        have hjr := hrec j g' (by rw [List.getElem?_eq_some_iff]; exact ⟨hj, hjg⟩) (by simpa using hg2)
        obtain ⟨hi', hig⟩ := List.getElem?_eq_some_iff.mp hg
        have hg0 : g ∈ m.groups := List.mem_of_getElem? hg
        have hne : i ≠ j := by
          rintro rfl
          exact hi (by simpa using hjr)
        have hnd2 : (held m).Nodup := hn1.of_map
        have htt : t = t' := by
          refine List.inj_on_of_nodup_map hn1 ?_ ?_ hid.symm
          · exact List.mem_flatMap.mpr ⟨g, hg0, htm⟩
          · exact List.mem_flatMap.mpr ⟨g', hg1, ht'⟩
        subst htt
        unfold held at hnd2
        rw [List.nodup_flatMap] at hnd2
        have hpw := hnd2.2
        rw [List.pairwise_iff_getElem] at hpw
        rcases Nat.lt_or_gt_of_ne hne with hlt | hlt
        · exact hpw i j hi' hj hlt (by rw [hig]; exact htm) (by rw [hjg]; exact ht')
        · exact hpw j i hj hi' hlt (by rw [hjg]; exact ht') (by rw [hig]; exact htm))
      unfold held
      rw [filter_flatMap_groups, ← this]
      simp only [reInitializeGroups, Nat.zero_add]
    have ha1 : Agree (reInitializeGroups recovered ignore m) := by
      intro g hg
      simp only [reInitializeGroups] at hg
      obtain ⟨i, hi, hig⟩ := List.mem_mapIdx.mp hg
      rw [← hig]
      split_ifs with hr
      · rw [reInitialize_worker, reInitialize_container]
        exact hn2 m.groups[i] (List.getElem_mem hi)
      · exact ha _ (List.getElem_mem hi)
    have hs1 : Sound (reInitializeGroups recovered ignore m) := by
      intro g hg
      simp only [reInitializeGroups] at hg
      obtain ⟨i, hi, hig⟩ := List.mem_mapIdx.mp hg
      rw [← hig]
      split_ifs with hr
      · rfl
      · cases hf : m.groups[i].failed with
        | false => rfl
        | true =>
          exact absurd (hrec i _ (by rw [List.getElem?_eq_some_iff]; exact ⟨hi, rfl⟩) hf) hr
    obtain ⟨a1, a2, a3, f1, a4, a5, a6⟩ := redistribute_spec ha1 hs1 h2
    refine ⟨a1, ?_, by rw [a3]; exact ht⟩
    refine a6.trans ?_
    rw [hfilter]
    have hf1 : f1.Perm ((held m).filter fun t => ignore.contains t.id) := by
      have htn : (m.tasks.map Task.id).Nodup := (ht.map Task.id).nodup_iff.mpr hn
      refine perm_of_ids htn a5 ?_ ?_ ?_
      · intro t hm
        exact ht.mem_iff.mpr (hp.mem_iff.mp (List.mem_of_mem_filter hm))
      · rw [a4]; exact hnd
      · rw [a4, List.perm_ext_iff_of_nodup hnd]
        · intro id
          constructor
          · intro hid
            have hfa := hign id hid
            unfold faultIDs at hfa
            obtain ⟨g', hg', hg''⟩ := List.mem_flatMap.mp hfa
            obtain ⟨t', ht', hid'⟩ := List.mem_map.mp hg''
            refine List.mem_map.mpr ⟨t', List.mem_filter.mpr ⟨?_, ?_⟩, hid'⟩
            · exact List.mem_flatMap.mpr ⟨g', List.mem_of_mem_filter hg', ht'⟩
            · simpa [hid'] using hid
          · intro hid
            obtain ⟨t, ht1, ht2⟩ := List.mem_map.mp hid
            have := (List.mem_filter.mp ht1).2
            rw [← ht2]
            simpa using this
        · exact hn1.sublist (List.filter_sublist.map _)
    refine (List.Perm.append_right _ hf1).trans ?_
    have := List.filter_append_perm (fun t : Task => ignore.contains t.id) (held m)
    exact this.trans hp

/-! ## The property -/

/-- After the first run every task is held once, whichever groups were free first. -/
theorem C41_runfirst (tasks order : List Task) (choice : List ℕ) (n : ℕ) (m : Manager)
    (hperm : order.Perm tasks)
    (h : runfirst order choice ⟨List.replicate n ⟨[], [], false⟩, tasks⟩ = .ok m) :
    Holds tasks m := by
  unfold runfirst at h
  split_ifs at h
  have ha : Agree ⟨List.replicate n ⟨[], [], false⟩, order⟩ := by
    intro g hg
    rw [List.eq_of_mem_replicate hg]
    rfl
  have hs : Sound ⟨List.replicate n ⟨[], [], false⟩, order⟩ := by
    intro g hg
    rw [List.eq_of_mem_replicate hg]
  obtain ⟨a1, a2, a3, a4, -⟩ := assignAll_spec ha hs h
  rw [holds_iff]
  refine ⟨a1, ?_, by rw [a3]; exact hperm⟩
  have h0 : held ⟨List.replicate n ⟨[], [], false⟩, order⟩ = [] := by
    unfold held
    rw [List.flatMap_eq_nil_iff]
    intro g hg
    rw [List.eq_of_mem_replicate hg]
  rw [h0, List.append_nil] at a4
  exact a4.trans hperm

/-- C41, as long as no group fails during a reschedule: after the first run, and after any sequence of
runs, reschedules and recoveries from failed groups, the groups hold exactly the tasks, each once, and
each group's workers have the manager's list in the same order. -/
theorem C41_tasks_kept_partial (tasks order : List Task) (choice : List ℕ) (n : ℕ) (m m' : Manager)
    (hids : (tasks.map Task.id).Nodup) (hperm : order.Perm tasks)
    (h : runfirst order choice ⟨List.replicate n ⟨[], [], false⟩, tasks⟩ = .ok m)
    (hr : Reaches Event m m') : Holds tasks m' := by
  have h0 := C41_runfirst tasks order choice n m hperm h
  clear h
  induction hr with
  | refl x => exact h0
  | tail x y z hxy _ ih => exact ih (event_holds hids h0 hxy)

/-- What `Holds` means for one task: there is exactly one group whose workers have it. -/
theorem C41_exactly_one (tasks : List Task) (m : Manager) (hids : (tasks.map Task.id).Nodup)
    (h : Holds tasks m) (t : Task) (ht : t ∈ tasks) :
    ∃! i : ℕ, ∃ g : Group, m.groups[i]? = some g ∧ t ∈ g.worker := by
  obtain ⟨-, hp, -⟩ := h
  have hnd : (m.groups.flatMap Group.worker).Nodup := hp.nodup_iff.mpr hids.of_map
  rw [List.nodup_flatMap] at hnd
  obtain ⟨g, hg, hgt⟩ := List.mem_flatMap.mp (hp.mem_iff.mpr ht)
  obtain ⟨i, hi, hig⟩ := List.getElem_of_mem hg
  refine ⟨i, ⟨g, by rw [List.getElem?_eq_some_iff]; exact ⟨hi, hig⟩, hgt⟩, ?_⟩
  rintro j ⟨g', hg', hgt'⟩
  obtain ⟨hj, hjg⟩ := List.getElem?_eq_some_iff.mp hg'
  by_contra hne
  have hpw := hnd.2
  rw [List.pairwise_iff_getElem] at hpw
  rcases Nat.lt_or_gt_of_ne hne with hlt | hlt
  · exact hpw j i hj hi hlt (by rw [hjg]; exact hgt') (by rw [hig]; exact hgt)
  · exact hpw i j hi hj hlt (by rw [hig]; exact hgt) (by rw [hjg]; exact hgt')

/-! ## Rescheduling does not fail -/

lemma mem_removeFirst {p : Task → Bool} {l : List Task} {t : Task} (h : t ∈ l) (hp : ¬ (p t = true)) :
    t ∈ removeFirst p l := by
  induction l with
  | nil => simp at h
  | cons x rest ih =>
    simp only [removeFirst]
    split_ifs with hx
    · rcases List.mem_cons.mp h with rfl | h
      · exact absurd hx hp
      · exact h
    · rcases List.mem_cons.mp h with rfl | h
      · exact List.mem_cons_self
      · exact List.mem_cons_of_mem _ (ih h)

lemma reschedLoop_ok (source : List ℤ → Option ℕ) (moves : List (List ℤ × ℕ)) (m : Manager)
    (ha : Agree m) (hs : Sound m) (hn : ((held m).map Task.id).Nodup)
    (hm : (moves.map Prod.fst).Nodup)
    (hsrc : ∀ p ∈ moves, ∃ i g, source p.1 = some i ∧ m.groups[i]? = some g ∧
      ∃ t ∈ g.container, t.level = p.1)
    (htgt : ∀ p ∈ moves, p.2 < m.groups.length) :
    ∃ m', reschedLoop source moves m = .ok m' := by
  induction moves generalizing m with
  | nil => exact ⟨m, rfl⟩
  | cons mv rest ih =>
    obtain ⟨level, target⟩ := mv
    obtain ⟨i, g, h1, h2, t, h3, h4⟩ := hsrc (level, target) List.mem_cons_self
    simp only at h1 h4
    obtain ⟨hi, hgi⟩ := List.getElem?_eq_some_iff.mp h2
    have hmem : g ∈ m.groups := List.mem_of_getElem? h2
    have hget := flatMap_get m.groups i hi
    rw [hgi] at hget
    have hng : (g.container.map Task.id).Nodup := by
      have : ((g.container ++ (m.groups.eraseIdx i).flatMap Group.container).map
          Task.id).Nodup := (hget.map Task.id).nodup_iff.mp hn
      rw [List.map_append, List.nodup_append] at this
      exact this.1
    have hfound : ∃ t0, g.container.find? (fun t => t.level == level) = some t0 := by
      cases hf : g.container.find? (fun t => t.level == level) with
      | some t0 => exact ⟨t0, rfl⟩
      | none =>
        rw [List.find?_eq_none] at hf
        exact absurd (by simp [h4]) (hf t h3)
    obtain ⟨t0, hf⟩ := hfound
    obtain ⟨e1, e2⟩ := removeFirst_level_id hng hf
    set g' : Group := { g with
      container := removeFirst (fun u => u.level == level) g.container
      sent := g.sent ++ [.remove t0.id] } with hg'
    have hrem : g.reschedRemove level = .ok (g', t0) := by
      unfold Group.reschedRemove
      simp only [hf, ha g hmem, e1, hg']
    have htl : target < m.groups.length := htgt (level, target) List.mem_cons_self
    have hassign : ∃ m1, assign t0 target { m with groups := m.groups.set i g' } = .ok m1 := by
      unfold assign
      have : (m.groups.set i g')[target]? = some ((m.groups.set i g')[target]'(by simpa using htl)) :=
        List.getElem?_eq_getElem (by simpa using htl)
      simp only [this]
      exact ⟨_, rfl⟩
    obtain ⟨m1, hm1⟩ := hassign
    obtain ⟨r1, r2, r3, r4⟩ := reschedRemove_spec (ha g hmem) hng hrem
    have ha' : Agree { m with groups := m.groups.set i g' } := by
      intro x hx
      rcases mem_set_cases hx with hx | hx
      · exact ha x hx
      · subst hx; exact r1
    have hs' : Sound { m with groups := m.groups.set i g' } := by
      intro x hx
      rcases mem_set_cases hx with hx | hx
      · exact hs x hx
      · subst hx; rw [r2]; exact hs g hmem
    have hp : (t0 :: held { m with groups := m.groups.set i g' }).Perm (held m) := by
      unfold held
      refine (List.Perm.cons t0 (flatMap_set m.groups i hi g')).trans ?_
      refine List.Perm.trans ?_ hget.symm
      have := List.Perm.append_right ((m.groups.eraseIdx i).flatMap Group.container) r4
      simpa using this.symm
    obtain ⟨a1, a2, a3, a4, a5⟩ := assign_spec ha' hs' hm1
    simp only [List.length_set] at a5
    simp only [List.map_cons, List.nodup_cons] at hm
    have key : ∃ m', reschedLoop source rest m1 = .ok m' := by
      refine ih m1 a1 a2 (((a4.trans hp).map Task.id).nodup_iff.mpr hn) hm.2 ?_ ?_
      · intro p hpm
        obtain ⟨j, gj, q1, q2, u, q3, q4⟩ := hsrc p (List.mem_cons_of_mem _ hpm)
        have hne : p.1 ≠ level := by
          intro he
          exact hm.1 (by rw [← he]; exact List.mem_map.mpr ⟨p, hpm, rfl⟩)
        -- the task is still in group `j`
        have hj1 : ∃ g1, (m.groups.set i g')[j]? = some g1 ∧ u ∈ g1.container := by
          by_cases hij : i = j
          · subst hij
            rw [h2] at q2
            simp only [Option.some.injEq] at q2
            subst q2
            refine ⟨g', by rw [List.getElem?_set_self hi], ?_⟩
            exact mem_removeFirst q3 (by simp [q4, hne])
          · exact ⟨gj, by rw [List.getElem?_set_ne hij]; exact q2, q3⟩
        obtain ⟨g1, s1, s2⟩ := hj1
        have hj2 : ∃ g2, m1.groups[j]? = some g2 ∧ u ∈ g2.container := by
          unfold assign at hm1
          cases hgt : (m.groups.set i g')[target]? with
          | none => simp only [hgt] at hm1; simp at hm1
          | some gt =>
            simp only [hgt, Outcome.ok.injEq] at hm1
            subst hm1
            simp only
            by_cases htj : target = j
            · subst htj
              rw [hgt] at s1
              simp only [Option.some.injEq] at s1
              subst s1
              refine ⟨_, by rw [List.getElem?_set_self (by simpa using htl)], ?_⟩
              unfold Group.storeAndSend
              split_ifs
              · exact s2
              · exact List.mem_append_left _ s2
            · exact ⟨g1, by rw [List.getElem?_set_ne htj]; exact s1, s2⟩
        obtain ⟨g2, v1, v2⟩ := hj2
        exact ⟨j, g2, q1, v1, u, v2, q4⟩
      · intro p hpm
        rw [a5]
        exact htgt p (List.mem_cons_of_mem _ hpm)
    obtain ⟨m', hm'⟩ := key
    refine ⟨m', ?_⟩
    simp only [reschedLoop, h1, h2, hrem, Outcome.bind, hm1]
    exact hm'

/-- Rescheduling succeeds for all moves of different, existing levels to existing groups, in particular
(C42) for those that the rebalancing rescheduler returns; and it keeps the tasks. -/
theorem C41_reschedule_total (tasks : List Task) (m : Manager) (moves : List (List ℤ × ℕ))
    (hids : (tasks.map Task.id).Nodup) (h : Holds tasks m) (hs : ∀ g ∈ m.groups, g.failed = false)
    (hnd : (moves.map Prod.fst).Nodup) (hlev : ∀ p ∈ moves, ∃ t ∈ tasks, t.level = p.1)
    (htgt : ∀ p ∈ moves, p.2 < m.groups.length) :
    ∃ m', reschedule moves m = .ok m' ∧ Holds tasks m' := by
  obtain ⟨ha, hp, ht⟩ := holds_iff.mp h
  obtain ⟨hn1, hn2⟩ := held_nodup hids hp
  obtain ⟨m1, hm1⟩ := reschedLoop_ok (sourceOf m.groups) moves m ha hs hn1 hnd (by
    intro p hpm
    obtain ⟨t, ht1, ht2⟩ := hlev p hpm
    have hheld : t ∈ held m := hp.mem_iff.mpr ht1
    obtain ⟨g, hg, hgt⟩ := List.mem_flatMap.mp hheld
    cases hidx : sourceOf m.groups p.1 with
    | none =>
      unfold sourceOf at hidx
      rw [List.findIdx?_eq_none_iff] at hidx
      have := hidx g hg
      simp only [List.any_eq_false] at this
      exact absurd (by simp [ht2]) (this t hgt)
    | some i =>
      have hidx' := hidx
      unfold sourceOf at hidx
      rw [List.findIdx?_eq_some_iff_getElem] at hidx
      obtain ⟨hi, hany, -⟩ := hidx
      rw [List.any_eq_true] at hany
      obtain ⟨u, hu1, hu2⟩ := hany
      exact ⟨i, m.groups[i], rfl, List.getElem?_eq_getElem hi, u, hu1, by simpa using hu2⟩) htgt
  have hr : reschedule moves m = .ok { m1 with tasks := m1.groups.flatMap Group.container } := by
    unfold reschedule
    rw [hm1]
    rfl
  exact ⟨_, hr, event_holds hids h (.resched m _ moves hs hr)⟩

/-! ## Where it fails -/

/-- When a task is rescheduled to a group that has failed, the task is taken from its group, the
other group does not take it, and nobody notices: the task is lost. -/
theorem C41_reschedule_failed_violated :
    ∃ (tasks : List Task) (m m' : Manager), (tasks.map Task.id).Nodup ∧ Holds tasks m ∧
      reschedule [([1, 2], 1)] m = .ok m' ∧ ∃ t ∈ tasks, ∀ g ∈ m'.groups, t ∉ g.worker := by
  refine ⟨[⟨0, [1, 2]⟩, ⟨1, [2, 1]⟩],
    ⟨[⟨[⟨0, [1, 2]⟩], [.append ⟨0, [1, 2]⟩], false⟩, ⟨[⟨1, [2, 1]⟩], [.append ⟨1, [2, 1]⟩], true⟩],
      [⟨0, [1, 2]⟩, ⟨1, [2, 1]⟩]⟩,
    ⟨[⟨[], [.append ⟨0, [1, 2]⟩, .remove 0], false⟩, ⟨[⟨1, [2, 1]⟩], [.append ⟨1, [2, 1]⟩], true⟩],
      [⟨1, [2, 1]⟩]⟩, by decide, ?_, by decide, ⟨0, [1, 2]⟩, by decide, by decide⟩
  exact ⟨by decide, by decide, by decide⟩

/-! ## Examples -/

/-- Three tasks, two groups; the first run, then task 0 moves to group 1. -/
example :
    runfirst [⟨2, [2, 2]⟩, ⟨0, [1, 2]⟩, ⟨1, [2, 1]⟩] [0, 1, 0]
        ⟨List.replicate 2 ⟨[], [], false⟩, [⟨0, [1, 2]⟩, ⟨1, [2, 1]⟩, ⟨2, [2, 2]⟩]⟩ =
      .ok ⟨[⟨[⟨2, [2, 2]⟩, ⟨1, [2, 1]⟩], [.append ⟨2, [2, 2]⟩, .append ⟨1, [2, 1]⟩], false⟩,
          ⟨[⟨0, [1, 2]⟩], [.append ⟨0, [1, 2]⟩], false⟩],
        [⟨2, [2, 2]⟩, ⟨0, [1, 2]⟩, ⟨1, [2, 1]⟩]⟩ ∧
    reschedule [([2, 2], 1)]
        ⟨[⟨[⟨2, [2, 2]⟩, ⟨1, [2, 1]⟩], [.append ⟨2, [2, 2]⟩, .append ⟨1, [2, 1]⟩], false⟩,
          ⟨[⟨0, [1, 2]⟩], [.append ⟨0, [1, 2]⟩], false⟩],
        [⟨2, [2, 2]⟩, ⟨0, [1, 2]⟩, ⟨1, [2, 1]⟩]⟩ =
      .ok ⟨[⟨[⟨1, [2, 1]⟩], [.append ⟨2, [2, 2]⟩, .append ⟨1, [2, 1]⟩, .remove 2], false⟩,
          ⟨[⟨0, [1, 2]⟩, ⟨2, [2, 2]⟩], [.append ⟨0, [1, 2]⟩, .append ⟨2, [2, 2]⟩], false⟩],
        [⟨1, [2, 1]⟩, ⟨0, [1, 2]⟩, ⟨2, [2, 2]⟩]⟩ := by
  decide

/-- A group fails and is lost; one of its tasks is redistributed, the other recomputed. -/
example (m : Manager)
    (hm : m = ⟨[⟨[⟨2, [2, 2]⟩, ⟨1, [2, 1]⟩], [.append ⟨2, [2, 2]⟩, .append ⟨1, [2, 1]⟩], true⟩,
      ⟨[⟨0, [1, 2]⟩], [.append ⟨0, [1, 2]⟩], false⟩], [⟨2, [2, 2]⟩, ⟨0, [1, 2]⟩, ⟨1, [2, 1]⟩]⟩) :
    ∃ m', Event m m' := by
  subst hm
  exact ⟨_, .lost _ _ _ _ [1] [2] [0] [0] (by decide) rfl rfl rfl⟩

/-- A group fails and is restored; one of its tasks is recomputed by another group. -/
example (m : Manager)
    (hm : m = ⟨[⟨[⟨2, [2, 2]⟩, ⟨1, [2, 1]⟩], [.append ⟨2, [2, 2]⟩, .append ⟨1, [2, 1]⟩], true⟩,
      ⟨[⟨0, [1, 2]⟩], [.append ⟨0, [1, 2]⟩], false⟩], [⟨2, [2, 2]⟩, ⟨0, [1, 2]⟩, ⟨1, [2, 1]⟩]⟩) :
    ∃ m', Event m m' := by
  subst hm
  refine ⟨_, .restored _ _ [0] [2] [1] ?_ (by decide) (by decide) rfl⟩
  · intro i g hg hf
    match i, hg with
    | 0, _ => simp
    | 1, hg => simp at hg; subst hg; simp at hf

end Verif.TaskLists
