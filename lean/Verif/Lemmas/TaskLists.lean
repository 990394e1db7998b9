import Verif.Model.TaskLists
import Mathlib.Data.List.Perm.Basic
import Mathlib.Data.List.Nodup

/-!
# Lemmas about the task lists
-/

namespace Verif.TaskLists

lemma ok_bind {α β : Type} {x : Outcome α} {f : α → Outcome β} {b : β}
    (h : x.bind f = .ok b) : ∃ a, x = .ok a ∧ f a = .ok b := by
  cases x with
  | ok a => exact ⟨a, rfl, h⟩
  | error => simp [Outcome.bind] at h
  | stuck => simp [Outcome.bind] at h

/-- Every group's workers hold what the manager thinks they hold. -/
def Agree (m : Manager) : Prop := ∀ g ∈ m.groups, g.worker = g.container

/-- No group has failed. -/
def Sound (m : Manager) : Prop := ∀ g ∈ m.groups, g.failed = false

/-- All tasks in the manager's lists of the groups. -/
def held (m : Manager) : List Task := m.groups.flatMap Group.container

lemma worker_append (g : Group) (cs : List Cmd) (c : List Task) :
    ({ g with container := c, sent := g.sent ++ cs } : Group).worker =
      cs.foldl workerStep g.worker := by
  simp [Group.worker, List.foldl_append]

lemma flatMap_set (gs : List Group) (i : ℕ) (hi : i < gs.length) (g' : Group) :
    ((gs.set i g').flatMap Group.container).Perm
      (g'.container ++ (gs.eraseIdx i).flatMap Group.container) := by
  have hi' : i < (gs.set i g').length := by simpa using hi
  have h1 := List.getElem_cons_eraseIdx_perm hi'
  have h2 : (gs.set i g').eraseIdx i = gs.eraseIdx i := by
    rw [List.eraseIdx_set_eq]
  rw [h2, List.getElem_set_self] at h1
  have := h1.symm.flatMap_right Group.container
  simpa using this

lemma flatMap_get (gs : List Group) (i : ℕ) (hi : i < gs.length) :
    (gs.flatMap Group.container).Perm
      (gs[i].container ++ (gs.eraseIdx i).flatMap Group.container) := by
  have := (List.getElem_cons_eraseIdx_perm hi).symm.flatMap_right Group.container
  simpa using this

lemma mem_set_cases {gs : List Group} {i : ℕ} {g' g : Group} (h : g ∈ gs.set i g') :
    g ∈ gs ∨ g = g' := List.mem_or_eq_of_mem_set h

lemma assign_spec {t : Task} {i : ℕ} {m m' : Manager} (ha : Agree m) (hs : Sound m)
    (h : assign t i m = .ok m') :
    Agree m' ∧ Sound m' ∧ m'.tasks = m.tasks ∧ (held m').Perm (t :: held m) ∧
      m'.groups.length = m.groups.length := by
  unfold assign at h
  cases hg : m.groups[i]? with
  | none => rw [hg] at h; simp at h
  | some g =>
    rw [hg] at h
    simp only [Outcome.ok.injEq] at h
    subst h
    obtain ⟨hi, hgi⟩ := List.getElem?_eq_some_iff.mp hg
    have hmem : g ∈ m.groups := List.mem_of_getElem? hg
    have hst : g.storeAndSend t =
        { g with container := g.container ++ [t], sent := g.sent ++ [.append t] } := by
      simp [Group.storeAndSend, hs g hmem]
    refine ⟨?_, ?_, rfl, ?_, by simp⟩
    · intro g' hg'
      rcases mem_set_cases hg' with h1 | h1
      · exact ha g' h1
      · subst h1
        rw [hst, worker_append]
        simp [workerStep, ha g hmem]
    · intro g' hg'
      rcases mem_set_cases hg' with h1 | h1
      · exact hs g' h1
      · subst h1
        rw [hst]
        exact hs g hmem
    · unfold held
      refine (flatMap_set m.groups i hi _).trans ?_
      have h2 := flatMap_get m.groups i hi
      rw [hgi] at h2
      rw [hst]
      simp only [List.append_assoc, List.cons_append, List.nil_append]
      refine List.perm_middle.trans ?_
      exact List.Perm.cons t h2.symm

lemma assignAll_spec {ts : List Task} {is : List ℕ} {m m' : Manager} (ha : Agree m) (hs : Sound m)
    (h : assignAll ts is m = .ok m') :
    Agree m' ∧ Sound m' ∧ m'.tasks = m.tasks ∧ (held m').Perm (ts ++ held m) ∧
      m'.groups.length = m.groups.length := by
  induction ts generalizing is m with
  | nil =>
    simp only [assignAll, Outcome.ok.injEq] at h
    subst h
    exact ⟨ha, hs, rfl, List.Perm.refl _, rfl⟩
  | cons t ts ih =>
    cases is with
    | nil => simp [assignAll] at h
    | cons i is =>
      simp only [assignAll] at h
      obtain ⟨m1, h1, h2⟩ := ok_bind h
      obtain ⟨a1, a2, a3, a4, a5⟩ := assign_spec ha hs h1
      obtain ⟨b1, b2, b3, b4, b5⟩ := ih a1 a2 h2
      refine ⟨b1, b2, b3.trans a3, ?_, b5.trans a5⟩
      refine b4.trans ?_
      refine (List.Perm.append_left ts a4).trans ?_
      exact List.perm_middle

lemma findTask_spec {tasks : List Task} {id : ℕ} {t : Task} (h : findTask tasks id = some t) :
    t ∈ tasks ∧ t.id = id := by
  unfold findTask at h
  exact ⟨List.mem_of_find?_eq_some h, by simpa using List.find?_some h⟩

lemma redistribute_spec {ids is : List ℕ} {m m' : Manager} (ha : Agree m) (hs : Sound m)
    (h : redistribute ids is m = .ok m') :
    Agree m' ∧ Sound m' ∧ m'.tasks = m.tasks ∧
      ∃ found : List Task, found.map Task.id = ids ∧ (∀ t ∈ found, t ∈ m.tasks) ∧
        (held m').Perm (found ++ held m) := by
  induction ids generalizing is m with
  | nil =>
    simp only [redistribute, Outcome.ok.injEq] at h
    subst h
    exact ⟨ha, hs, rfl, [], rfl, by simp, List.Perm.refl _⟩
  | cons id ids ih =>
    cases is with
    | nil => simp [redistribute] at h
    | cons i is =>
      simp only [redistribute] at h
      cases hf : findTask m.tasks id with
      | none => rw [hf] at h; simp at h
      | some t =>
        rw [hf] at h
        obtain ⟨m1, h1, h2⟩ := ok_bind h
        obtain ⟨a1, a2, a3, a4, -⟩ := assign_spec ha hs h1
        obtain ⟨b1, b2, b3, found, b4, b5, b6⟩ := ih a1 a2 h2
        obtain ⟨f1, f2⟩ := findTask_spec hf
        refine ⟨b1, b2, b3.trans a3, t :: found, by simp [b4, f2], ?_, ?_⟩
        · intro u hu
          rcases List.mem_cons.mp hu with rfl | hu
          · exact f1
          · rw [← a3]; exact b5 u hu
        · refine b6.trans ?_
          refine (List.Perm.append_left found a4).trans ?_
          exact List.perm_middle

/-- Lists of tasks with the same ids are the same, up to order. -/
lemma perm_of_ids {tasks a b : List Task} (hn : (tasks.map Task.id).Nodup)
    (ha : ∀ t ∈ a, t ∈ tasks) (hb : ∀ t ∈ b, t ∈ tasks) (hna : (a.map Task.id).Nodup)
    (h : (a.map Task.id).Perm (b.map Task.id)) : a.Perm b := by
  have hinj : ∀ t ∈ tasks, ∀ u ∈ tasks, t.id = u.id → t = u := by
    intro t ht u hu
    exact List.inj_on_of_nodup_map hn ht hu
  have hnb : (b.map Task.id).Nodup := h.nodup_iff.mp hna
  rw [List.perm_ext_iff_of_nodup hna.of_map hnb.of_map]
  intro t
  constructor
  · intro ht
    have : t.id ∈ b.map Task.id := h.mem_iff.mp (List.mem_map.mpr ⟨t, ht, rfl⟩)
    obtain ⟨u, hu, hut⟩ := List.mem_map.mp this
    rw [hinj t (ha t ht) u (hb u hu) hut.symm]
    exact hu
  · intro ht
    have : t.id ∈ a.map Task.id := h.mem_iff.mpr (List.mem_map.mpr ⟨t, ht, rfl⟩)
    obtain ⟨u, hu, hut⟩ := List.mem_map.mp this
    rw [hinj t (hb t ht) u (ha u hu) hut.symm]
    exact hu

/-! ## Removing a task -/

lemma removeFirst_perm {p : Task → Bool} {l : List Task} {t : Task} (h : l.find? p = some t) :
    l.Perm (t :: removeFirst p l) := by
  induction l with
  | nil => simp at h
  | cons x rest ih =>
    simp only [removeFirst]
    by_cases hx : p x = true
    · rw [List.find?_cons_of_pos hx] at h
      simp only [Option.some.injEq] at h
      subst h
      simp [hx]
    · rw [List.find?_cons_of_neg hx] at h
      rw [if_neg hx]
      exact (List.Perm.cons x (ih h)).trans (List.Perm.swap _ _ _)

lemma removeFirst_level_id {l : List Task} {level : List ℤ} {t : Task}
    (hn : (l.map Task.id).Nodup) (h : l.find? (fun u => u.level == level) = some t) :
    l.find? (fun u => u.id == t.id) = some t ∧
      removeFirst (fun u => u.level == level) l = removeFirst (fun u => u.id == t.id) l := by
  induction l with
  | nil => simp at h
  | cons x rest ih =>
    simp only [List.map_cons, List.nodup_cons] at hn
    by_cases hx : (x.level == level) = true
    · rw [List.find?_cons_of_pos (by exact hx)] at h
      simp only [Option.some.injEq] at h
      subst h
      simp [removeFirst, hx]
    · rw [List.find?_cons_of_neg (by exact hx)] at h
      obtain ⟨h1, h2⟩ := ih hn.2 h
      have hne : ¬ ((x.id == t.id) = true) := by
        intro he
        have he' : x.id = t.id := by simpa using he
        exact hn.1 (by rw [he']; exact List.mem_map.mpr ⟨t, List.mem_of_find?_eq_some h, rfl⟩)
      refine ⟨?_, ?_⟩
      · rw [List.find?_cons_of_neg (by exact hne)]
        exact h1
      · simp only [removeFirst]
        rw [if_neg hx, if_neg hne, h2]

lemma reschedRemove_spec {g g' : Group} {level : List ℤ} {t : Task} (hw : g.worker = g.container)
    (hn : (g.container.map Task.id).Nodup) (h : g.reschedRemove level = .ok (g', t)) :
    g'.worker = g'.container ∧ g'.failed = g.failed ∧ t.level = level ∧
      g.container.Perm (t :: g'.container) := by
  unfold Group.reschedRemove at h
  cases hf : g.container.find? (fun t => t.level == level) with
  | none => rw [hf] at h; simp at h
  | some t0 =>
    obtain ⟨h1, h2⟩ := removeFirst_level_id hn hf
    rw [hf] at h
    simp only [hw, h1, Outcome.ok.injEq, Prod.mk.injEq] at h
    obtain ⟨h3, h4⟩ := h
    subst h4
    subst h3
    refine ⟨?_, rfl, by simpa using List.find?_some hf, removeFirst_perm hf⟩
    have e := worker_append g [.remove t0.id] (removeFirst (fun u => u.level == level) g.container)
    rw [e]
    simp only [List.foldl_cons, List.foldl_nil, workerStep, hw]
    exact h2.symm

lemma reschedLoop_spec {source : List ℤ → Option ℕ} {moves : List (List ℤ × ℕ)} {m m' : Manager}
    (ha : Agree m) (hs : Sound m) (hn : ((held m).map Task.id).Nodup)
    (h : reschedLoop source moves m = .ok m') :
    Agree m' ∧ Sound m' ∧ (held m').Perm (held m) := by
  induction moves generalizing m with
  | nil =>
    simp only [reschedLoop, Outcome.ok.injEq] at h
    subst h
    exact ⟨ha, hs, List.Perm.refl _⟩
  | cons mv rest ih =>
    obtain ⟨level, target⟩ := mv
    simp only [reschedLoop] at h
    cases hsrc : source level with
    | none => rw [hsrc] at h; simp at h
    | some i =>
      rw [hsrc] at h
      simp only at h
      cases hg : m.groups[i]? with
      | none => rw [hg] at h; simp at h
      | some g =>
        rw [hg] at h
        simp only at h
        obtain ⟨⟨g', t⟩, h1, h2⟩ := ok_bind h
        obtain ⟨m1, h3, h4⟩ := ok_bind h2
        obtain ⟨hi, hgi⟩ := List.getElem?_eq_some_iff.mp hg
        have hmem : g ∈ m.groups := List.mem_of_getElem? hg
        have hget := flatMap_get m.groups i hi
        rw [hgi] at hget
        have hng : (g.container.map Task.id).Nodup := by
          have : ((g.container ++ (m.groups.eraseIdx i).flatMap Group.container).map
              Task.id).Nodup := (hget.map Task.id).nodup_iff.mp hn
          rw [List.map_append, List.nodup_append] at this
          exact this.1
        obtain ⟨r1, r2, r3, r4⟩ := reschedRemove_spec (ha g hmem) hng h1
        have ha' : Agree { m with groups := m.groups.set i g' } := by
          intro x hx
          rcases mem_set_cases hx with hx | hx
          · exact ha x hx
          · subst hx; exact r1
        have hs' : Sound { m with groups := m.groups.set i g' } := by
          intro x hx
          rcases mem_set_cases hx with hx | hx
          · exact hs x hx
          · subst hx; rw [r2]; exact hs g hmem
        have hp : (t :: held { m with groups := m.groups.set i g' }).Perm (held m) := by
          unfold held
          refine (List.Perm.cons t (flatMap_set m.groups i hi g')).trans ?_
          refine List.Perm.trans ?_ hget.symm
          have := List.Perm.append_right ((m.groups.eraseIdx i).flatMap Group.container) r4
          simpa using this.symm
        obtain ⟨a1, a2, a3, a4, -⟩ := assign_spec ha' hs' h3
        have hp1 : (held m1).Perm (held m) := a4.trans hp
        obtain ⟨b1, b2, b3⟩ := ih a1 a2 ((hp1.map Task.id).nodup_iff.mpr hn) h4
        exact ⟨b1, b2, b3.trans hp1⟩

/-! ## Reinitialising groups -/

lemma removeFirst_eq_erase (l : List Task) (t : Task) :
    removeFirst (fun u => u == t) l = l.erase t := by
  induction l with
  | nil => rfl
  | cons x rest ih =>
    simp only [removeFirst, List.erase_cons, ih]

lemma foldl_remove (d l : List Task) (hn : l.Nodup) :
    d.foldl (fun l t => removeFirst (fun u => u == t) l) l = l.filter fun t => !(d.contains t) := by
  induction d generalizing l with
  | nil => simp
  | cons x d ih =>
    rw [List.foldl_cons, removeFirst_eq_erase, ih _ (hn.erase x), hn.erase_eq_filter,
      List.filter_filter]
    apply List.filter_congr
    intro t _
    by_cases h : t = x <;> simp [h]

lemma reInitialize_container (ignore : List ℕ) (g : Group) (hn : g.container.Nodup) :
    (g.reInitialize ignore).container = g.container.filter fun t => !(ignore.contains t.id) := by
  simp only [Group.reInitialize]
  rw [foldl_remove _ _ hn]
  apply List.filter_congr
  intro t ht
  have : (g.container.filter fun t => ignore.contains t.id).contains t = ignore.contains t.id := by
    rw [Bool.eq_iff_iff]
    simp [ht]
  rw [this]

lemma foldl_append_tasks (ts l : List Task) :
    (ts.map Cmd.append).foldl workerStep l = l ++ ts := by
  induction ts generalizing l with
  | nil => simp
  | cons t ts ih =>
    rw [List.map_cons, List.foldl_cons, ih]
    simp [workerStep]

lemma reInitialize_worker (ignore : List ℕ) (g : Group) :
    (g.reInitialize ignore).worker = g.container.filter fun t => !(ignore.contains t.id) := by
  simp only [Group.reInitialize, Group.worker, List.foldl_append]
  rw [foldl_append_tasks]
  simp [workerStep]

end Verif.TaskLists
