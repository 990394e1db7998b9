import Verif.Model.Parameters
import Verif.Lemmas.OrderedMap

/-!
# Combination parameters (C50) and restoring the scheme (C68)
-/

namespace Verif

variable {R : Type}

/-! ### What arrives -/

/-- Reading back what was written. -/
private def Ser.Lawful {α : Type} (a : Ser R α) : Prop := ∀ x rest, a.load (a.save x ++ rest) = some (x, rest)

private lemma lawful_nat : (Ser.nat (R := R)).Lawful := fun _ _ => rfl
private lemma lawful_int : (Ser.int (R := R)).Lawful := fun _ _ => rfl
private lemma lawful_real : (Ser.real (R := R)).Lawful := fun _ _ => rfl
private lemma lawful_str : (Ser.str (R := R)).Lawful := fun _ _ => rfl
private lemma lawful_bool : (Ser.bool (R := R)).Lawful := by
  intro b rest
  cases b <;> simp [Ser.bool]

private lemma lawful_pair {α β : Type} {a : Ser R α} {b : Ser R β} (ha : a.Lawful) (hb : b.Lawful) :
    (Ser.pair a b).Lawful := by
  rintro ⟨x, y⟩ rest
  simp only [Ser.pair, List.append_assoc]
  rw [ha]
  simp [hb y rest]

private lemma lawful_list {α : Type} {a : Ser R α} (ha : a.Lawful) : (Ser.list a).Lawful := by
  intro xs rest
  simp only [Ser.list, List.cons_append]
  induction xs generalizing rest with
  | nil => simp [Ser.loadItems]
  | cons x xs ih =>
    simp only [List.length_cons, List.flatMap_cons, List.append_assoc, Ser.loadItems]
    rw [ha]
    have := ih rest
    simp [this]

private lemma bind_pair {α γ : Type} {m : Option α} {f : α → Option γ} {a : α}
    {r : Option γ} (h : m = some a) (h2 : f a = r) : (m >>= f) = r := by
  rw [h]; exact h2

private lemma load_save (p q : CombiParams R) :
    q.load p.save = some ({ p with levelsToIDs := q.levelsToIDs, combiDictionary := q.combiDictionary },
      []) := by
  have e : q.load p.save = q.load (p.save ++ []) := by rw [List.append_nil]
  rw [e]
  unfold CombiParams.load CombiParams.save
  simp only [List.append_assoc]
  refine bind_pair (lawful_nat _ _) ?_
  refine bind_pair (lawful_list lawful_int _ _) ?_
  refine bind_pair (lawful_list lawful_int _ _) ?_
  refine bind_pair (lawful_list lawful_nat _ _) ?_
  refine bind_pair (lawful_list (lawful_pair lawful_nat (lawful_list lawful_int)) _ _) ?_
  refine bind_pair (lawful_list (lawful_pair lawful_nat lawful_real) _ _) ?_
  refine bind_pair (lawful_list lawful_bool _ _) ?_
  refine bind_pair (lawful_list lawful_nat _ _) ?_
  refine bind_pair (lawful_list lawful_int _ _) ?_
  refine bind_pair (lawful_list (lawful_list lawful_int) _ _) ?_
  refine bind_pair (lawful_bool _ _) ?_
  refine bind_pair (lawful_nat _ _) ?_
  refine bind_pair (lawful_nat _ _) ?_
  refine bind_pair (lawful_nat _ _) ?_
  refine bind_pair (lawful_nat _ _) ?_
  refine bind_pair (lawful_list lawful_int _ _) ?_
  refine bind_pair (lawful_list lawful_int _ _) ?_
  refine bind_pair (lawful_str _ _) ?_
  refine bind_pair (lawful_nat _ _) ?_
  refine bind_pair (lawful_nat _ _) ?_
  rfl

/-- **C50 (partial), what arrives.** Every worker gets the parameters of the manager, except that the
two maps with levels as keys are empty. So all accessors agree that do not use these maps. Missing:
`getID`, `getLevelsToIDs`, `getCombiDict`, see `C50_violated_worker`. -/
theorem C50_received_partial [Zero R] (p : CombiParams R) (isMaster : Bool) :
    ∃ q, p.received isMaster = .ok q ∧
      q = { p with levelsToIDs := [], combiDictionary := [] } ∧
      (∀ id, q.getCoeff id = p.getCoeff id) ∧ (∀ id, q.getLevel id = p.getLevel id) ∧
      q.getNumLevels = p.getNumLevels ∧ q.getCoeffs = p.getCoeffs := by
  have h1 : p.transfer = .ok { p with levelsToIDs := [], combiDictionary := [] } := by
    unfold CombiParams.transfer
    rw [load_save]
    rfl
  have h2 : CombiParams.transfer { p with levelsToIDs := [], combiDictionary := [] } =
      .ok { p with levelsToIDs := [], combiDictionary := [] } := by
    unfold CombiParams.transfer
    rw [load_save]
    rfl
  refine ⟨{ p with levelsToIDs := [], combiDictionary := [] }, ?_, rfl, fun _ => rfl, fun _ => rfl,
    rfl, rfl⟩
  cases isMaster with
  | true => simp [CombiParams.received, h1]
  | false => simp [CombiParams.received, h1, Outcome.bind, h2]

/-! ### By number and by level -/

/-- The coefficient found by the number of a task and the one found by its level agree, and so do
the numbers. -/
def CombiParams.Agree [Zero R] (p : CombiParams R) : Prop :=
  ∀ id l, p.levels.find id = some l →
    p.dictCoeff l = some (p.getCoeff id) ∧ (p.getID l).1 = id

/-- The changes of the parameters; `getID` is one, too. -/
inductive ParamUpdate (R : Type) where
  | setCoeff (taskID : ℕ) (coeff : R)
  | setLevelsCoeffs (taskIDs : List ℕ) (levels : List (List ℤ)) (coeffs : List R)
  | getID (level : List ℤ)

def CombiParams.update (p : CombiParams R) : ParamUpdate R → Outcome (CombiParams R)
  | .setCoeff i c => p.setCoeff i c
  | .setLevelsCoeffs is ls cs => p.setLevelsCoeffs is ls cs
  | .getID l => .ok (p.getID l).2

def CombiParams.updates (p : CombiParams R) : List (ParamUpdate R) → Outcome (CombiParams R)
  | [] => .ok p
  | u :: us => (p.update u).bind fun q => q.updates us

/-- No two tasks share a level, and no task changes its level: what `setLevelsCoeffs` has to be given
if it is called with the parameters `p`. -/
def KeepsLevels (p : CombiParams R) (taskIDs : List ℕ) (levels : List (List ℤ)) : Prop :=
  levels.Nodup ∧ ∀ d ∈ taskIDs.zip levels, ∀ j l, p.levels.find j = some l → (j = d.1 ↔ l = d.2)

/-- All calls of `setLevelsCoeffs` in a sequence of updates fulfil `KeepsLevels`. -/
def AllKeepLevels (p : CombiParams R) : List (ParamUpdate R) → Prop
  | [] => True
  | u :: us =>
    (match u with
      | .setLevelsCoeffs is ls _ => KeepsLevels p is ls
      | _ => True) ∧ ∀ q, p.update u = .ok q → AllKeepLevels q us

/-- The invariant behind `Agree`. -/
private structure Inv (p : CombiParams R) : Prop where
  keys : ∀ id, (p.coeffs.find id).isSome → (p.levels.find id).isSome
  dict : ∀ id l, p.levels.find id = some l →
    ∃ c, p.coeffs.find id = some c ∧ p.combiDictionary.find l = some c
  ids : ∀ id l, p.levels.find id = some l → p.levelsToIDs.find l = some id

private lemma Inv.agree [Zero R] {p : CombiParams R} (h : Inv p) : p.Agree := by
  intro id l hl
  obtain ⟨c, h1, h2⟩ := h.dict id l hl
  refine ⟨?_, ?_⟩
  · simp [CombiParams.dictCoeff, CombiParams.getCoeff, h1, h2]
  · simp [CombiParams.getID, h.ids id l hl]

private lemma inv_setCoeff {p q : CombiParams R} (h : Inv p) {i : ℕ} {c : R}
    (hq : p.setCoeff i c = .ok q) : Inv q := by
  unfold CombiParams.setCoeff at hq
  split_ifs at hq with hc hl
  · exfalso
    have := h.keys i (by simpa using Option.isSome_iff_ne_none.mpr (by simpa using hc))
    simp at hl
    simp [hl] at this
  · simp only [Outcome.ok.injEq] at hq
    subst hq
    obtain ⟨li, hli⟩ := Option.isSome_iff_exists.mp
      (Option.isSome_iff_ne_none.mpr (by simpa using hl) : (p.levels.find i).isSome)
    have hgl : p.getLevel i = li := by simp [CombiParams.getLevel, hli]
    refine ⟨?_, ?_, ?_⟩
    · intro id hid
      simp only [OMap.find_set] at hid
      by_cases he : id = i
      · subst he; simp [hli]
      · rw [if_neg he] at hid; exact h.keys id hid
    · intro id l hl'
      simp only [OMap.find_set, hgl]
      by_cases he : id = i
      · subst he
        rw [hli, Option.some.injEq] at hl'
        subst hl'
        exact ⟨c, by simp, by simp⟩
      · obtain ⟨c', h1, h2⟩ := h.dict id l hl'
        have hne : l ≠ li := by
          rintro rfl
          have e1 := h.ids id l hl'
          have e2 := h.ids i l hli
          rw [e1, Option.some.injEq] at e2
          exact he e2
        exact ⟨c', by simp [he, h1], by simp [hne, h2]⟩
    · exact h.ids

private lemma inv_loop : ∀ (ds : List (ℕ × List ℤ × R)) {p : CombiParams R}, Inv p →
    (ds.map Prod.fst).Nodup → (ds.map fun d => d.2.1).Nodup →
    (∀ d ∈ ds, ∀ j l, p.levels.find j = some l → (j = d.1 ↔ l = d.2.1)) →
    Inv (p.setLevelsCoeffsLoop ds) := by
  intro ds
  induction ds with
  | nil => intro p h _ _ _; exact h
  | cons d ds ih =>
    intro p h hn1 hn2 hk
    obtain ⟨i, l, c⟩ := d
    simp only [List.map_cons, List.nodup_cons] at hn1 hn2
    have hk0 := hk (i, l, c) (by simp)
    simp only at hk0
    refine ih ?_ hn1.2 hn2.2 ?_
    · refine ⟨?_, ?_, ?_⟩
      · intro id
        simp only [CombiParams.setLevelCoeff, OMap.find_set]
        by_cases he : id = i
        · simp [he]
        · simp only [if_neg he]; exact h.keys id
      · intro id l'
        simp only [CombiParams.setLevelCoeff, OMap.find_set]
        by_cases he : id = i
        · simp only [he, if_true, Option.some.injEq]
          rintro rfl
          exact ⟨c, rfl, by simp⟩
        · simp only [if_neg he]
          intro hl'
          obtain ⟨c', h1, h2⟩ := h.dict id l' hl'
          have : l' ≠ l := fun e => he ((hk0 id l' hl').mpr e)
          exact ⟨c', h1, by simp [this, h2]⟩
      · intro id l'
        simp only [CombiParams.setLevelCoeff, OMap.find_set]
        by_cases he : id = i
        · simp only [he, if_true, Option.some.injEq]
          rintro rfl
          simp
        · simp only [if_neg he]
          intro hl'
          have : l' ≠ l := fun e => he ((hk0 id l' hl').mpr e)
          simp [this, h.ids id l' hl']
    · intro d hd j l' hj
      simp only [CombiParams.setLevelCoeff, OMap.find_set] at hj
      by_cases he : j = i
      · rw [if_pos he, Option.some.injEq] at hj
        subst he hj
        have h1 : j ≠ d.1 := fun e => hn1.1 (e ▸ List.mem_map.mpr ⟨d, hd, rfl⟩)
        have h2 : l ≠ d.2.1 := fun e => hn2.1 (e ▸ List.mem_map.mpr ⟨d, hd, rfl⟩)
        tauto
      · rw [if_neg he] at hj
        exact hk d (by simp [hd]) j l' hj

private lemma zip_maps {is : List ℕ} {ls : List (List ℤ)} {cs : List R}
    (h1 : is.length = cs.length) (h2 : cs.length = ls.length) :
    (is.zip (ls.zip cs)).map Prod.fst = is ∧ (is.zip (ls.zip cs)).map (fun d => d.2.1) = ls ∧
    (is.zip (ls.zip cs)).map (fun d => (d.1, d.2.1)) = is.zip ls := by
  induction is generalizing ls cs with
  | nil =>
    have : ls = [] := List.length_eq_zero_iff.mp (by simp at h1; omega)
    subst this; simp
  | cons i is ih =>
    cases cs with
    | nil => simp at h1
    | cons c cs =>
      cases ls with
      | nil => simp at h2
      | cons l ls =>
        obtain ⟨a, b, d⟩ := ih (ls := ls) (cs := cs) (by simpa using h1) (by simpa using h2)
        refine ⟨?_, ?_, ?_⟩ <;> simp [a, b, d]

private lemma inv_setLevelsCoeffs {p q : CombiParams R} (h : Inv p) {is : List ℕ}
    {ls : List (List ℤ)} {cs : List R} (hk : KeepsLevels p is ls)
    (hq : p.setLevelsCoeffs is ls cs = .ok q) : Inv q := by
  unfold CombiParams.setLevelsCoeffs at hq
  split_ifs at hq with h1 h2 h3
  simp only [Outcome.ok.injEq] at hq
  subst hq
  push Not at h2
  obtain ⟨z1, z2, z3⟩ := zip_maps h2.1 h2.2
  refine inv_loop _ h (by rw [z1]; exact h3) (by rw [z2]; exact hk.1) ?_
  intro d hd j l hj
  have := hk.2 (d.1, d.2.1) (by rw [← z3]; exact List.mem_map.mpr ⟨d, hd, rfl⟩) j l hj
  exact this

private lemma inv_getID {p : CombiParams R} (h : Inv p) (l : List ℤ) : Inv (p.getID l).2 := by
  unfold CombiParams.getID
  cases hl : p.levelsToIDs.find l with
  | some i => exact h
  | none =>
    refine ⟨h.keys, h.dict, ?_⟩
    intro id l' hl'
    simp only [OMap.find_set]
    have : l' ≠ l := by
      rintro rfl
      rw [h.ids id l' hl'] at hl
      exact absurd hl (by simp)
    simp [this, h.ids id l' hl']

private lemma inv_updates : ∀ (us : List (ParamUpdate R)) {p q : CombiParams R}, Inv p →
    AllKeepLevels p us → p.updates us = .ok q → Inv q := by
  intro us
  induction us with
  | nil =>
    intro p q h _ hq
    simp only [CombiParams.updates, Outcome.ok.injEq] at hq
    subst hq; exact h
  | cons u us ih =>
    intro p q h hk hq
    obtain ⟨hk1, hk2⟩ := hk
    simp only [CombiParams.updates] at hq
    cases hu : p.update u with
    | error => rw [hu] at hq; simp [Outcome.bind] at hq
    | stuck => rw [hu] at hq; simp [Outcome.bind] at hq
    | ok r =>
      rw [hu] at hq
      refine ih ?_ (hk2 r hu) hq
      cases u with
      | setCoeff i c => exact inv_setCoeff h hu
      | setLevelsCoeffs is ls cs => exact inv_setLevelsCoeffs h hk1 hu
      | getID l =>
        simp only [CombiParams.update, Outcome.ok.injEq] at hu
        subst hu
        exact inv_getID h l

/-- A parameter object as the constructors leave it before the tasks are set. -/
def NoTasks (p : CombiParams R) : Prop :=
  p.levels = [] ∧ p.coeffs = [] ∧ p.levelsToIDs = [] ∧ p.combiDictionary = []

/-- **C50 (partial), by number and by level.** On the manager, after the construction and any sequence
of changes in which no two tasks have the same level and no task changes its level, the coefficient of
every task is the same looked up by its number and by its level. Missing: the workers
(`C50_violated_worker`), tasks with the same level (`C50_violated_same_level`), and tasks that change
their level (`C50_violated_new_level`). -/
theorem C50_agree_partial [Zero R] (p q : CombiParams R) (hp : NoTasks p) (us : List (ParamUpdate R))
    (hk : AllKeepLevels p us) (hq : p.updates us = .ok q) : q.Agree := by
  refine (inv_updates us ?_ hk hq).agree
  obtain ⟨h1, h2, h3, h4⟩ := hp
  refine ⟨?_, ?_, ?_⟩
  · intro id h; rw [h2] at h; simp [OMap.find] at h
  · intro id l h; rw [h1] at h; simp [OMap.find] at h
  · intro id l h; rw [h1] at h; simp [OMap.find] at h

/-- Two tasks, a change of both coefficients as after a fault, a change of one, a lookup. -/
def exampleUpdates : List (ParamUpdate ℤ) :=
  [.setLevelsCoeffs [0, 1] [[2, 1], [1, 2]] [1, 1], .setLevelsCoeffs [0, 1] [[2, 1], [1, 2]] [0, 1],
    .setCoeff 1 (-1), .getID [3, 3]]

private lemma keepsLevels_of {p : CombiParams ℤ} {is : List ℕ} {ls : List (List ℤ)}
    (h : ls.Nodup ∧ ∀ d ∈ is.zip ls, ∀ e ∈ p.levels, (e.1 = d.1 ↔ e.2 = d.2)) : KeepsLevels p is ls :=
  ⟨h.1, fun d hd j l hj => h.2 d hd (j, l) (OMap.mem_of_find hj)⟩

example : NoTasks (CombiParams.empty (R := ℤ)) ∧ AllKeepLevels (CombiParams.empty (R := ℤ)) exampleUpdates ∧
    ∃ q, CombiParams.empty.updates exampleUpdates = .ok q ∧ q.getCoeff 1 = -1 ∧
      q.dictCoeff [1, 2] = some (-1) ∧ q.getCoeff 0 = 0 := by
  refine ⟨⟨rfl, rfl, rfl, rfl⟩, ?_, _, rfl, by decide, by decide, by decide⟩
  refine ⟨keepsLevels_of (by decide), ?_⟩
  intro q hq
  have hq' := hq
  simp only [CombiParams.update] at hq'
  cases (Outcome.ok.inj (hq'.symm.trans (by rfl : _ = Outcome.ok _)))
  refine ⟨keepsLevels_of (by decide), ?_⟩
  intro q _
  exact ⟨trivial, fun _ _ => ⟨trivial, fun _ _ => trivial⟩⟩

/-- What the changes do: `setCoeff` changes the coefficient of this task to the given one and no other
coefficient. -/
theorem C50_setCoeff_value [Zero R] (p q : CombiParams R) (i : ℕ) (c : R) (hq : p.setCoeff i c = .ok q) :
    ∀ j, q.getCoeff j = if j = i then c else p.getCoeff j := by
  unfold CombiParams.setCoeff at hq
  split_ifs at hq
  all_goals
    simp only [Outcome.ok.injEq] at hq
    subst hq
    intro j
    simp only [CombiParams.getCoeff, OMap.find_set]
    by_cases h : j = i <;> simp [h]

example : ∃ q, (CombiParams.empty (R := ℤ)).updates
    [.setLevelsCoeffs [0, 1] [[2, 1], [1, 2]] [1, 1]] = .ok q ∧ ∃ r, q.setCoeff 1 5 = .ok r :=
  ⟨_, rfl, _, rfl⟩

/-- **C50 is violated on the workers**: a task with number 5 and coefficient 1 of the manager. The
worker finds the coefficient by number, but not by level, and looks up the wrong number. -/
theorem C50_violated_worker :
    ∃ p q : CombiParams ℤ, CombiParams.empty.setLevelsCoeffs [5] [[2, 2]] [1] = .ok p ∧
      p.received true = .ok q ∧ p.Agree ∧ q.levels.find 5 = some [2, 2] ∧ q.getCoeff 5 = 1 ∧
      p.dictCoeff [2, 2] = some 1 ∧ q.dictCoeff [2, 2] = none ∧
      (p.getID [2, 2]).1 = 5 ∧ (q.getID [2, 2]).1 = 0 := by
  refine ⟨_, _, rfl, rfl, ?_, by decide, by decide, by decide, by decide, by decide, by decide⟩
  intro id l hl
  have : id = 5 ∧ l = [2, 2] := by
    have := OMap.mem_of_find hl
    simpa [CombiParams.setLevelsCoeffsLoop, CombiParams.setLevelCoeff, CombiParams.empty, OMap.set] using this
  obtain ⟨rfl, rfl⟩ := this
  decide

/-- **C50 is violated if two tasks have the same level**, which `setLevelsCoeffs` accepts: the
coefficient found by level is that of the last one. -/
theorem C50_violated_same_level :
    ∃ p : CombiParams ℤ, CombiParams.empty.setLevelsCoeffs [0, 1] [[2, 2], [2, 2]] [1, -1] = .ok p ∧
      p.levels.find 0 = some [2, 2] ∧ p.getCoeff 0 = 1 ∧ p.dictCoeff [2, 2] = some (-1) :=
  ⟨_, rfl, by decide, by decide, by decide⟩

/-- **C50 is violated if a task changes its level**: the old level keeps its entries. -/
theorem C50_violated_new_level :
    ∃ p q : CombiParams ℤ, CombiParams.empty.setLevelsCoeffs [0, 1] [[2, 1], [1, 2]] [1, 1] = .ok p ∧
      p.setLevelsCoeffs [0, 1] [[1, 2], [3, 1]] [4, 5] = .ok q ∧
      q.dictCoeff [2, 1] = some 1 ∧ (q.getID [2, 1]).1 = 0 ∧ q.getLevel 0 ≠ [2, 1] :=
  ⟨_, _, rfl, rfl, by decide, by decide, by decide⟩

/-! ### C68: restoring the scheme after faults -/

/-- **C68 (partial).** If every level of the scheme belongs to a task, `restoreCombischeme` gives each
of these tasks the coefficient of its level, does not change the other ones, and lookups by number and
level still agree. Missing: levels without a task, see `C68_violated`. -/
theorem C68_partial [Zero R] : ∀ (scheme : List (List ℤ × R)) (p p0 : CombiParams R)
    (us : List (ParamUpdate R)), NoTasks p0 → AllKeepLevels p0 us → p0.updates us = .ok p →
    (scheme.map Prod.fst).Nodup →
    (∀ d ∈ scheme, ∃ id, p.levels.find id = some d.1) →
    ∃ q, p.restoreLoop scheme = .ok q ∧ q.levels = p.levels ∧ q.Agree ∧
      (∀ d ∈ scheme, ∀ id, p.levels.find id = some d.1 → q.getCoeff id = d.2) ∧
      (∀ id, (∀ d ∈ scheme, p.levels.find id ≠ some d.1) → q.getCoeff id = p.getCoeff id) := by
  intro scheme p p0 us h1 h2 h3
  have hinv : Inv p := by
    refine inv_updates us ?_ h2 h3
    obtain ⟨h1, h2, h3, h4⟩ := h1
    refine ⟨?_, ?_, ?_⟩
    · intro id h; rw [h2] at h; simp [OMap.find] at h
    · intro id l h; rw [h1] at h; simp [OMap.find] at h
    · intro id l h; rw [h1] at h; simp [OMap.find] at h
  clear h1 h2 h3 us p0
  induction scheme generalizing p with
  | nil =>
    intro _ _
    exact ⟨p, rfl, rfl, hinv.agree, by simp, fun _ _ => rfl⟩
  | cons d ds ih =>
    intro hn hd
    obtain ⟨l, c⟩ := d
    obtain ⟨i, hi⟩ := hd (l, c) (by simp)
    simp only at hi
    have hid : p.getID l = (i, p) := by simp [CombiParams.getID, hinv.ids i l hi]
    obtain ⟨c0, hc0, -⟩ := hinv.dict i l hi
    have hset : ∃ q, p.setCoeff i c = .ok q ∧ q.levels = p.levels := by
      unfold CombiParams.setCoeff
      rw [if_neg (by simp [hc0])]
      exact ⟨_, rfl, by simp [hi]⟩
    obtain ⟨q, hq, hql⟩ := hset
    have hval := C50_setCoeff_value p q i c hq
    simp only [List.map_cons, List.nodup_cons] at hn
    obtain ⟨r, hr, hrl, hra, hr1, hr2⟩ := ih q (inv_setCoeff hinv hq) hn.2
      (fun d hd' => by rw [hql]; exact hd d (by simp [hd']))
    have hli : ∀ d ∈ ds, p.levels.find i ≠ some d.1 := by
      intro d hd' he
      rw [hi, Option.some.injEq] at he
      exact hn.1 (by rw [he]; exact List.mem_map.mpr ⟨d, hd', rfl⟩)
    refine ⟨r, ?_, hrl.trans hql, hra, ?_, ?_⟩
    · simp only [CombiParams.restoreLoop, hid, hq, Outcome.bind, hr]
    · intro d hd' id hidl
      rcases List.mem_cons.mp hd' with rfl | hd'
      · simp only at hidl ⊢
        have : id = i := by
          have e1 := hinv.ids id l hidl
          rw [hinv.ids i l hi, Option.some.injEq] at e1
          exact e1.symm
        subst this
        rw [hr2 id (fun d hd' => by rw [hql]; exact hli d hd'), hval]
        simp
      · exact hr1 d hd' id (by rw [hql]; exact hidl)
    · intro id hno
      rw [hr2 id (fun d hd' => by rw [hql]; exact hno d (by simp [hd'])), hval, if_neg]
      rintro rfl
      exact hno (l, c) (by simp) hi

example : ∃ p : CombiParams ℤ, CombiParams.empty.updates
      [.setLevelsCoeffs [0, 1] [[2, 1], [1, 2]] [1, 1], .setCoeff 1 0] = .ok p ∧
    (∀ d ∈ [(([1, 2] : List ℤ), (1 : ℤ)), ([2, 1], 1)], ∃ id, p.levels.find id = some d.1) ∧
    ∃ q, p.restoreLoop [([1, 2], 1), ([2, 1], 1)] = .ok q ∧ q.getCoeff 1 = 1 := by
  refine ⟨_, rfl, ?_, _, rfl, by decide⟩
  intro d hd
  rcases List.mem_cons.mp hd with rfl | hd
  · exact ⟨1, by decide⟩
  · rcases List.mem_cons.mp hd with rfl | hd
    · exact ⟨0, by decide⟩
    · simp at hd

/-- **C68 is violated if the scheme has a level without a task**: `getID` answers 0, and the
coefficient of the task with number 0 is overwritten. -/
theorem C68_violated :
    ∃ p q : CombiParams ℤ, CombiParams.empty.setLevelsCoeffs [0, 1] [[2, 1], [1, 2]] [1, 1] = .ok p ∧
      p.restoreLoop [([2, 1], 1), ([1, 2], 1), ([1, 1], -1)] = .ok q ∧ q.getCoeff 0 = -1 :=
  ⟨_, _, rfl, rfl, by decide⟩

end Verif
