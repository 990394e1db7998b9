import Verif.Model.ExperimentList
import Mathlib.Tactic.NormNum

/-!
# C130: every experiment of a list has a directory with its parameters
-/

namespace Verif.ExperimentList

open Verif.ErrorTable (Text)

private theorem ok_bind {α β : Type} (a : α) (f : α → Outcome β) : (Outcome.ok a).bind f = f a := rfl

private theorem number_ne_nil (n : ℕ) : Nat.toDigits 10 n ≠ [] := by
  intro h
  have := Nat.length_toDigits_pos (b := 10) (n := n)
  rw [h] at this
  simp at this

private theorem isDigit_number {n : ℕ} {c : Char} (h : c ∈ Nat.toDigits 10 n) : c.isDigit = true :=
  Nat.isDigit_of_mem_toDigits (by norm_num) (by norm_num) h

private theorem no_underscore {n : ℕ} : '_' ∉ Nat.toDigits 10 n := by
  intro h
  have := isDigit_number h
  revert this
  decide

private theorem no_underscore_level {l : List ℕ} : '_' ∉ levelName l := by
  intro h
  obtain ⟨n, -, hn⟩ := List.mem_flatMap.mp h
  exact no_underscore hn

private theorem number_injective {m n : ℕ} (h : Nat.toDigits 10 m = Nat.toDigits 10 n) : m = n := by
  have := congrArg (Nat.ofDigitChars 10 · 0) h
  simpa using this

/-- The last underscore of a text is where the text can be split. -/
private theorem split_last {c : Char} {a b x y : Text} (hx : c ∉ x) (hy : c ∉ y)
    (h : a ++ c :: x = b ++ c :: y) : a = b ∧ x = y := by
  rcases List.append_eq_append_iff.mp h with ⟨d, hd, he⟩ | ⟨d, hd, he⟩
  · cases d with
    | nil => simp_all
    | cons d0 d =>
      rw [List.cons_append, List.cons.injEq] at he
      exact absurd (he.2 ▸ by simp) hx
  · cases d with
    | nil => simp_all
    | cons d0 d =>
      rw [List.cons_append, List.cons.injEq] at he
      exact absurd (he.2 ▸ by simp) hy

private theorem levelName_injective : ∀ {l m : List ℕ}, (∀ n ∈ l, n < 10) → (∀ n ∈ m, n < 10) →
    levelName l = levelName m → l = m
  | [], [], _, _, _ => rfl
  | [], n :: m, _, _, h => by
    have := (List.append_eq_nil_iff.mp (show Nat.toDigits 10 n ++ levelName m = [] from h.symm)).1
    exact absurd this (number_ne_nil n)
  | n :: l, [], _, _, h => by
    have := (List.append_eq_nil_iff.mp (show Nat.toDigits 10 n ++ levelName l = [] from h)).1
    exact absurd this (number_ne_nil n)
  | n :: l, k :: m, hl, hm, h => by
    have hn := hl n (by simp)
    have hk := hm k (by simp)
    have e : Nat.toDigits 10 n ++ levelName l = Nat.toDigits 10 k ++ levelName m := h
    have hlen : (Nat.toDigits 10 n).length = (Nat.toDigits 10 k).length := by
      rw [Nat.toDigits_of_lt_base hn, Nat.toDigits_of_lt_base hk]
      rfl
    obtain ⟨e1, e2⟩ := List.append_inj e hlen
    rw [number_injective e1, levelName_injective (fun x hx => hl x (by simp [hx]))
      (fun x hx => hm x (by simp [hx])) e2]

/-- Levels with one digit. -/
def OneDigit (e : Experiment) : Prop := (∀ n ∈ e.lmin, n < 10) ∧ ∀ n ∈ e.lmax, n < 10

instance (e : Experiment) : Decidable (OneDigit e) := by unfold OneDigit; infer_instance

/-- **C130 (names).** If levels have one digit, experiments with the same directory agree in the name, the
levels, the number of steps, and the number of all steps. Names may have underscores and digits. -/
theorem C130_names_partial {e f : Experiment} (he : OneDigit e) (hf : OneDigit f)
    (h : dirname e = dirname f) :
    e.basename = f.basename ∧ e.lmin = f.lmin ∧ e.lmax = f.lmax ∧ e.nsteps = f.nsteps
      ∧ e.ncombi * e.nsteps = f.ncombi * f.nsteps := by
  unfold dirname at h
  obtain ⟨h, h4⟩ := split_last no_underscore no_underscore h
  obtain ⟨h, h3⟩ := split_last no_underscore no_underscore h
  obtain ⟨h, h2⟩ := split_last no_underscore_level no_underscore_level h
  obtain ⟨h, h1⟩ := split_last no_underscore_level no_underscore_level h
  exact ⟨h, levelName_injective he.1 hf.1 h1, levelName_injective he.2 hf.2 h2, number_injective h4,
    number_injective h3⟩

/-- Two different experiments in the sense of the theorem. -/
def sample (lmax : List ℕ) (dt : String) : Experiment :=
  ⟨"run_1".toList, [3, 1, 4, 4, 4, 1], lmax, [5, 1, 6, 6, 6, 1], [5, 1, 6, 6, 6, 1], [1, 1, 1, 2, 2, 1],
    2, 4, 10, 100, dt.toList⟩

example : OneDigit (sample [5, 1, 6, 6, 6, 1] "0.01")
    ∧ dirname (sample [5, 1, 6, 6, 6, 1] "0.01") = "run_1_314441_516661_1000_100".toList := by
  decide +kernel

/-- **C130 (combinations).** With a number of steps greater than zero, also the numbers of combinations
agree. -/
theorem C130_combinations_partial {e f : Experiment} (he : OneDigit e) (hf : OneDigit f)
    (hs : 0 < e.nsteps) (h : dirname e = dirname f) : e.ncombi = f.ncombi := by
  obtain ⟨-, -, -, h1, h2⟩ := C130_names_partial he hf h
  rw [← h1] at h2
  exact Nat.eq_of_mul_eq_mul_right hs h2

example : OneDigit (sample [5, 1, 6, 6, 6, 1] "0.01") ∧ 0 < (sample [5, 1, 6, 6, 6, 1] "0.01").nsteps := by
  decide

/-! ### Lines -/

private theorem toInt_number (n : ℕ) : ErrorTable.toInt (Nat.toDigits 10 n) = some n := by
  unfold ErrorTable.toInt
  rw [if_pos ⟨number_ne_nil n, List.all_eq_true.mpr fun c hc => isDigit_number hc⟩]
  exact congrArg some (Nat.ofDigitChars_toDigits (b := 10) (n := n) (by omega) (by omega))

private theorem mapM_toInt : ∀ l : List ℕ, (l.map (Nat.toDigits 10)).mapM ErrorTable.toInt = some l
  | [] => rfl
  | n :: l => by
    rw [List.map_cons, List.mapM_cons, toInt_number, mapM_toInt l]
    rfl

/-- Six entries for each vector. -/
def SixDim (e : Experiment) : Prop :=
  e.lmin.length = 6 ∧ e.lmax.length = 6 ∧ e.leval.length = 6 ∧ e.leval2.length = 6 ∧ e.p.length = 6

instance (e : Experiment) : Decidable (SixDim e) := by unfold SixDim; infer_instance

/-- The columns of an experiment. -/
def columns (e : Experiment) (dim : Text) (wall : ℕ) : List Text :=
  [e.basename, dim] ++ (e.lmin ++ e.lmax ++ e.leval ++ e.leval2 ++ e.p
    ++ [e.ngroup, e.nprocs, e.ncombi, e.nsteps]).map (Nat.toDigits 10) ++ [e.dt, Nat.toDigits 10 wall]

private theorem six {l : List ℕ} (h : l.length = 6) : ∃ a b c d e f, l = [a, b, c, d, e, f] := by
  match l, h with
  | [a, b, c, d, e, f], _ => exact ⟨a, b, c, d, e, f, rfl⟩

private theorem slice_eq {par : List Text} {a b : ℕ} {l : List ℕ}
    (h : (par.drop a).take (b - a) = l.map (Nat.toDigits 10)) : slice par a b = some l := by
  unfold slice
  rw [h, mapM_toInt]

private theorem item_eq {par : List Text} {i n : ℕ} (h : par[i]? = some (Nat.toDigits 10 n)) :
    item par i = some n := by
  unfold item
  rw [h, Option.bind_some, toInt_number]

/-- **C130 (lines).** A line with the columns of an experiment is read as this experiment. -/
theorem C130_line {e : Experiment} (h : SixDim e) (dim : Text) (wall : ℕ) :
    readLine (columns e dim wall) = .ok (some e) := by
  obtain ⟨basename, lmin, lmax, leval, leval2, p, ngroup, nprocs, ncombi, nsteps, dt⟩ := e
  obtain ⟨h1, h2, h3, h4, h5⟩ := h
  obtain ⟨a0, a1, a2, a3, a4, a5, rfl⟩ := six h1
  obtain ⟨b0, b1, b2, b3, b4, b5, rfl⟩ := six h2
  obtain ⟨c0, c1, c2, c3, c4, c5, rfl⟩ := six h3
  obtain ⟨d0, d1, d2, d3, d4, d5, rfl⟩ := six h4
  obtain ⟨e0, e1, e2, e3, e4, e5, rfl⟩ := six h5
  unfold readLine
  rw [if_neg (by exact Nat.succ_ne_zero _)]
  rw [slice_eq (a := 2) (b := 8) (l := [a0, a1, a2, a3, a4, a5]) rfl,
    slice_eq (a := 8) (b := 14) (l := [b0, b1, b2, b3, b4, b5]) rfl,
    slice_eq (a := 14) (b := 20) (l := [c0, c1, c2, c3, c4, c5]) rfl,
    slice_eq (a := 20) (b := 26) (l := [d0, d1, d2, d3, d4, d5]) rfl,
    slice_eq (a := 26) (b := 32) (l := [e0, e1, e2, e3, e4, e5]) rfl,
    item_eq (i := 32) (n := ngroup) rfl, item_eq (i := 33) (n := nprocs) rfl,
    item_eq (i := 34) (n := ncombi) rfl, item_eq (i := 35) (n := nsteps) rfl, item_eq (i := 37) (n := wall) rfl]
  rfl

example : SixDim (sample [5, 1, 6, 6, 6, 1] "0.01") := by decide

/-- **C130 (short lines).** A line with fewer columns is an error, unless it is empty. -/
theorem C130_short {par : List Text} (h0 : 0 < par.length) (h : par.length < 38) :
    readLine par = .error := by
  have hi : item par 37 = none := by
    unfold item
    rw [List.getElem?_eq_none (by omega)]
    rfl
  unfold readLine
  rw [if_neg (by omega), hi]
  cases par[0]? <;> cases par[1]? <;> cases slice par 2 8 <;> try rfl
  all_goals cases slice par 8 14 <;> cases slice par 14 20 <;> try rfl
  all_goals cases slice par 20 26 <;> cases slice par 26 32 <;> try rfl
  all_goals cases item par 32 <;> cases item par 33 <;> try rfl
  all_goals cases item par 34 <;> cases item par 35 <;> cases par[36]? <;> rfl

example : 0 < ["run".toList, "6".toList].length ∧ ["run".toList, "6".toList].length < 38 := by decide

/-! ### Directories -/

private theorem runList_line {e : Experiment} (h : SixDim e) (ds : Dirs) (dim : Text) (wall : ℕ)
    (lines : List (List Text)) :
    runList ds (columns e dim wall :: lines) = runList (create ds e) lines := by
  rw [runList, C130_line h, ok_bind]

private theorem find_create (ds : Dirs) (e : Experiment) (name : Text) :
    (create ds e).find name = if name = dirname e then some e else ds.find name := by
  unfold create Dirs.find
  by_cases h : name = dirname e
  · rw [if_pos h, h, List.lookup_cons_self]
  · rw [if_neg h, List.lookup_cons, beq_false_of_ne h]
    induction ds with
    | nil => rfl
    | cons d ds ih =>
      obtain ⟨k, f⟩ := d
      by_cases hk : k = dirname e
      · rw [List.filter_cons_of_neg (by simp [hk]), ih, List.lookup_cons, hk, beq_false_of_ne h]
      · rw [List.filter_cons_of_pos (by simpa using hk)]
        simp only [List.lookup_cons]
        cases name == k
        · exact ih
        · rfl

/-- A line of the file: empty, or with an experiment. -/
def lineOf : Option (Experiment × Text × ℕ) → List Text
  | none => []
  | some (e, dim, wall) => columns e dim wall

/-- The experiments of the lines. -/
def experiments (ls : List (Option (Experiment × Text × ℕ))) : List Experiment :=
  ls.filterMap (Option.map Prod.fst)

/-- Two experiments have different names, levels, or numbers of steps. -/
def Differ (e f : Experiment) : Prop :=
  ¬ (e.basename = f.basename ∧ e.lmin = f.lmin ∧ e.lmax = f.lmax ∧ e.nsteps = f.nsteps
    ∧ e.ncombi * e.nsteps = f.ncombi * f.nsteps)

instance (e f : Experiment) : Decidable (Differ e f) := by unfold Differ; infer_instance

/-- **C130 (directories).** If levels have one digit and experiments differ in their names, levels or numbers
of steps, there is at the end a directory with its parameters for each of them. Other directories are as
before. -/
theorem C130_dirs_partial : ∀ {ls : List (Option (Experiment × Text × ℕ))} (ds : Dirs),
    (∀ e ∈ experiments ls, SixDim e ∧ OneDigit e) → (experiments ls).Pairwise Differ →
    ∃ r, runList ds (ls.map lineOf) = .ok r ∧ (∀ e ∈ experiments ls, r.find (dirname e) = some e)
      ∧ ∀ name, (∀ e ∈ experiments ls, name ≠ dirname e) → r.find name = ds.find name
  | [], ds, _, _ => ⟨ds, rfl, by simp [experiments], fun _ _ => rfl⟩
  | none :: ls, ds, h, hd => by
    have he : experiments (none :: ls) = experiments ls := rfl
    rw [he] at h hd ⊢
    exact C130_dirs_partial (ls := ls) ds h hd
  | some (e, dim, wall) :: ls, ds, h, hd => by
    have he : experiments (some (e, dim, wall) :: ls) = e :: experiments ls := rfl
    rw [he] at h hd ⊢
    obtain ⟨hd1, hd2⟩ := List.pairwise_cons.mp hd
    obtain ⟨r, h1, h2, h3⟩ := C130_dirs_partial (ls := ls) (create ds e) (fun f hf => h f (by simp [hf])) hd2
    have hne : ∀ f ∈ experiments ls, dirname e ≠ dirname f := fun f hf hc =>
      hd1 f hf (C130_names_partial (h e (by simp)).2 (h f (by simp [hf])).2 hc)
    refine ⟨r, ?_, ?_, ?_⟩
    · rw [List.map_cons]
      exact (runList_line (h e (by simp)).1 ds dim wall _).trans h1
    · intro f hf
      rcases List.mem_cons.mp hf with rfl | hf
      · rw [h3 _ hne, find_create, if_pos rfl]
      · exact h2 f hf
    · intro name hn
      rw [h3 name fun f hf => hn f (by simp [hf]), find_create, if_neg (hn e (by simp))]

/-- A file with two experiments and an empty line. -/
def sampleLines : List (Option (Experiment × Text × ℕ)) :=
  [some (sample [5, 1, 6, 6, 6, 1] "0.01", "6".toList, 10), none,
    some (sample [5, 1, 7, 6, 6, 1] "0.01", "6".toList, 10)]

example : (∀ e ∈ experiments sampleLines, SixDim e ∧ OneDigit e)
    ∧ (experiments sampleLines).Pairwise Differ := by decide

/-! ### What goes wrong -/

/-- **C130 is violated by the code (levels with two digits).** Nothing separates the levels in the name. Two
experiments with different greatest levels share one directory, which has the parameters of the second. -/
theorem C130_digits_violated :
    let e := sample [11, 1, 6, 6, 6, 1] "0.01"
    let f := sample [1, 11, 6, 6, 6, 1] "0.01"
    e.lmax ≠ f.lmax ∧ dirname e = dirname f
      ∧ ∃ r, runList [] [columns e "6".toList 10, columns f "6".toList 10] = .ok r
        ∧ r.find (dirname e) = some f ∧ r.length = 1 := by
  refine ⟨by decide, by decide +kernel, [(dirname (sample [1, 11, 6, 6, 6, 1] "0.01"),
    sample [1, 11, 6, 6, 6, 1] "0.01")], ?_, by decide +kernel, rfl⟩
  rw [runList_line (by decide), runList_line (by decide), runList]
  decide +kernel

/-- **C130 is violated by the code (other parameters).** The time step is not in the name: experiments with
different time steps, as in a study of convergence in time, share one directory. -/
theorem C130_time_step_violated {e : Experiment} (h : SixDim e) (dt : Text) (dim : Text) (wall : ℕ)
    (ds : Dirs) :
    ∃ r, runList ds [columns e dim wall, columns { e with dt := dt } dim wall] = .ok r
      ∧ r.find (dirname e) = some { e with dt := dt } := by
  refine ⟨create (create ds e) { e with dt := dt }, ?_, ?_⟩
  · rw [runList_line h, runList_line (e := { e with dt := dt }) h]
    rfl
  · rw [find_create]
    exact if_pos rfl

example : SixDim (sample [5, 1, 6, 6, 6, 1] "0.01")
    ∧ sample [5, 1, 6, 6, 6, 1] "0.01" ≠ { sample [5, 1, 6, 6, 6, 1] "0.01" with dt := "0.02".toList } := by
  decide

end Verif.ExperimentList
