import Verif.Model.TaskDirs

/-!
# Property C126: tasks are computed in their directories
-/

namespace Verif.TaskDirs

theorem splitPath_name (s : List Char) (h : '/' ∉ s) : splitPath s = [s] := by
  induction s with
  | nil => rfl
  | cons c s ih =>
    rw [List.mem_cons, not_or] at h
    rw [splitPath, if_neg (Ne.symm h.1), ih h.2]

theorem splitPath_append (a b : List Char) (h : '/' ∉ a) : splitPath (a ++ '/' :: b) = a :: splitPath b := by
  induction a with
  | nil => rfl
  | cons c a ih =>
    rw [List.mem_cons, not_or] at h
    rw [List.cons_append, splitPath, if_neg (Ne.symm h.1), ih h.2]

/-- the names of directories that are entered: not empty, neither `.` nor `..`, without slashes -/
def Proper (w : Name) : Prop := w ≠ [] ∧ w ≠ ['.'] ∧ w ≠ ['.', '.'] ∧ '/' ∉ w

theorem enter_proper (dirs : List Name → Bool) (cwd : List Name) (w : Name) (h : Proper w) :
    enter dirs cwd w = if dirs (cwd ++ [w]) then some (cwd ++ [w]) else none := by
  rw [enter, if_neg (by rintro (h1 | h1); exact h.1 h1; exact h.2.1 h1)]
  simp only [if_neg h.2.2.1]

theorem enter_up (dirs : List Name → Bool) (cwd : List Name) :
    enter dirs cwd ['.', '.'] = if dirs cwd.dropLast then some cwd.dropLast else none := by
  rw [enter, if_neg (by decide)]
  simp only [if_pos]

theorem number_ne_nil (i : ℕ) : number i ≠ [] := by
  intro h
  have := Nat.length_toDigits_pos (b := 10) (n := i)
  rw [number] at h
  rw [h] at this
  exact absurd this (by decide)

theorem number_isDigit (i : ℕ) (c : Char) (h : c ∈ number i) : c.isDigit = true :=
  Nat.isDigit_of_mem_toDigits (by decide) (by decide) h

/-- a name that ends with a number is a proper one -/
theorem proper_number (b : List Char) (i : ℕ) (hb : '/' ∉ b) : Proper (b ++ number i) := by
  have hn := number_ne_nil i
  have hlast : ∀ s : List Char, s.getLast? = some '.' → b ++ number i ≠ s := by
    intro s hs he
    rw [← he, List.getLast?_append, List.getLast?_eq_some_getLast hn, Option.some_or, Option.some.injEq] at hs
    have := number_isDigit i _ (List.getLast_mem hn)
    rw [hs] at this
    exact absurd this (by decide)
  refine ⟨?_, hlast _ rfl, hlast _ rfl, ?_⟩
  · intro h
    exact hn (List.append_eq_nil_iff.1 h).2
  · intro h
    rcases List.mem_append.1 h with h | h
    · exact hb h
    · exact absurd (number_isDigit i _ h) (by decide)

theorem chdir_selalib (dirs : List Name → Bool) (cwd : List Name) (basename : List Char) (i : ℕ)
    (hb : '/' ∉ basename) (hd : dirs (cwd ++ [basename ++ number i]) = true) :
    chdir dirs cwd (selalibPath basename i) = some (cwd ++ [basename ++ number i]) := by
  have hp := proper_number basename i hb
  rw [chdir, selalibPath, if_neg (by simp)]
  have hs : splitPath (['.', '/'] ++ basename ++ number i) = [['.'], basename ++ number i] := by
    have := splitPath_append ['.'] (basename ++ number i) (by decide)
    rw [splitPath_name _ hp.2.2.2] at this
    simpa using this
  rw [hs, enterAll, enter, if_pos (.inr rfl), Option.bind_some, enterAll, enter_proper _ _ _ hp, if_pos hd]
  rfl

theorem chdir_up (dirs : List Name → Bool) (base : List Name) (w : Name) (h : dirs base = true) :
    chdir dirs (base ++ [w]) ['.', '.'] = some base := by
  rw [chdir, if_neg (by decide), splitPath_name _ (by decide), enterAll, enter_up, List.dropLast_concat, if_pos h]
  rfl

theorem workTimes_eq (dirs : List Name → Bool) (base : List Name) (basename : List Char) (i n : ℕ)
    (hb : '/' ∉ basename) (hbase : dirs base = true) (hd : dirs (base ++ [basename ++ number i]) = true) :
    workTimes dirs (selalibPath basename i) n base =
      some (List.replicate n (base ++ [basename ++ number i]), base) := by
  induction n with
  | zero => rfl
  | succ n ih =>
    rw [workTimes, work, chdir_selalib _ _ _ _ hb hd, Option.bind_some, chdir_up _ _ _ hbase, Option.bind_some,
      Option.bind_some]
    simp only
    rw [ih]
    rfl

/-- C126: if the name has no slash and the directories exist, then whatever the process group does with its
tasks, Selalib is always called in the directory of the task, as often as it should be, and the process is in its
old directory afterwards. -/
theorem C126_selalib (dirs : List Name → Bool) (base : List Name) (basename : List Char) (active : ℕ → Bool)
    (ops : List (Op × ℕ)) (hb : '/' ∉ basename) (hbase : dirs base = true)
    (hd : ∀ o ∈ ops, dirs (base ++ [basename ++ number o.2]) = true) :
    ∃ calls, selalibOps dirs basename active ops base = some (calls, base) ∧
      (∀ c ∈ calls, c.2 = base ++ [basename ++ number c.1]) ∧
      calls.map (·.1) = ops.flatMap fun o => List.replicate
        (match o.1 with
          | .init => 2
          | .run => if active o.2 then 1 else 0
          | .diagnostics => 1) o.2 := by
  induction ops with
  | nil => exact ⟨[], rfl, by simp, rfl⟩
  | cons o ops ih =>
    obtain ⟨op, i⟩ := o
    obtain ⟨calls, h1, h2, h3⟩ := ih fun o ho => hd o (List.mem_cons_of_mem _ ho)
    have hdi := hd (op, i) List.mem_cons_self
    refine ⟨(List.replicate (numCalls (active i) op) (base ++ [basename ++ number i])).map (fun d => (i, d)) ++
      calls, ?_, ?_, ?_⟩
    · rw [selalibOps, workTimes_eq _ _ _ _ _ hb hbase hdi, Option.bind_some]
      simp only
      rw [h1]
      rfl
    · intro c hc
      rcases List.mem_append.1 hc with hc | hc
      · obtain ⟨d, hd', rfl⟩ := List.mem_map.1 hc
        exact (List.mem_replicate.1 hd').2
      · exact h2 c hc
    · rw [List.map_append, h3, List.flatMap_cons]
      congr 1
      rw [List.map_map, List.map_replicate]
      cases op <;> rfl

/-- the hypotheses hold for two tasks -/
example : ∃ calls, selalibOps (fun _ => true) ['s'] (fun i => i == 0)
    [(.init, 0), (.init, 1), (.run, 0), (.run, 1), (.diagnostics, 1)] [['h']] = some (calls, [['h']]) := by
  obtain ⟨calls, h, -⟩ := C126_selalib (fun _ => true) [['h']] ['s'] (fun i => i == 0)
    [(.init, 0), (.init, 1), (.run, 0), (.run, 1), (.diagnostics, 1)] (by decide) rfl (fun _ _ => rfl)
  exact ⟨calls, h⟩

/-- C126 is violated: if the name has a slash, the process is not in its old directory after a run, since it only
goes up once. -/
theorem C126_nested_violated (dirs : List Name → Bool) (base : List Name) (a b : List Char) (i : ℕ)
    (ha : Proper a) (hb : '/' ∉ b) (h1 : dirs (base ++ [a]) = true)
    (h2 : dirs (base ++ [a, b ++ number i]) = true) :
    selalibOps dirs (a ++ '/' :: b) (fun _ => true) [(.run, i)] base =
      some ([(i, base ++ [a, b ++ number i])], base ++ [a]) := by
  have hp := proper_number b i hb
  have hs : splitPath (selalibPath (a ++ '/' :: b) i) = [['.'], a, b ++ number i] := by
    have h3 := splitPath_append ['.'] (a ++ '/' :: (b ++ number i)) (by decide)
    rw [splitPath_append a _ ha.2.2.2, splitPath_name _ hp.2.2.2] at h3
    rw [selalibPath]
    simpa using h3
  have hc : chdir dirs base (selalibPath (a ++ '/' :: b) i) = some (base ++ [a] ++ [b ++ number i]) := by
    rw [chdir, hs, if_neg (by rw [selalibPath]; simp), enterAll, enter, if_pos (.inr rfl), Option.bind_some,
      enterAll, enter_proper _ _ _ ha, if_pos h1, Option.bind_some, enterAll, enter_proper _ _ _ hp,
      if_pos (by simpa using h2)]
    rfl
  rw [selalibOps, numCalls, if_pos rfl, workTimes, work, hc, Option.bind_some, chdir_up _ _ _ h1]
  simp [workTimes, selalibOps]

/-- C126 is violated: then the next task is not found. -/
theorem C126_second_violated (dirs : List Name → Bool) (base : List Name) (a b : List Char) (i j : ℕ)
    (ha : Proper a) (hb : '/' ∉ b) (h1 : dirs (base ++ [a]) = true)
    (h2 : dirs (base ++ [a, b ++ number i]) = true) (h3 : dirs (base ++ [a, a]) = false) :
    selalibOps dirs (a ++ '/' :: b) (fun _ => true) [(.run, i), (.run, j)] base = none := by
  have h4 := C126_nested_violated dirs base a b i ha hb h1 h2
  have hp := proper_number b j hb
  have hs : splitPath (selalibPath (a ++ '/' :: b) j) = [['.'], a, b ++ number j] := by
    have h3 := splitPath_append ['.'] (a ++ '/' :: (b ++ number j)) (by decide)
    rw [splitPath_append a _ ha.2.2.2, splitPath_name _ hp.2.2.2] at h3
    rw [selalibPath]
    simpa using h3
  have hc : chdir dirs (base ++ [a]) (selalibPath (a ++ '/' :: b) j) = none := by
    rw [chdir, hs, if_neg (by rw [selalibPath]; simp), enterAll, enter, if_pos (.inr rfl), Option.bind_some,
      enterAll, enter_proper _ _ _ ha, if_neg (by simp [h3])]
    rfl
  have h5 : ∀ ops, selalibOps dirs (a ++ '/' :: b) (fun _ => true) ((.run, j) :: ops) (base ++ [a]) = none := by
    intro ops
    rw [selalibOps, numCalls, if_pos rfl, workTimes, work, hc]
    rfl
  rw [selalibOps] at h4 ⊢
  cases hw : workTimes dirs (selalibPath (a ++ '/' :: b) i) (numCalls true .run) base with
  | none => rfl
  | some r =>
    rw [hw] at h4
    simp only [Option.bind_some, selalibOps, Option.some.injEq, Prod.mk.injEq] at h4
    simp only [Option.bind_some]
    rw [h4.2, h5]
    rfl

/-- the hypotheses hold for `runs/t` -/
example : ∃ dirs : List Name → Bool, Proper ['r', 'u', 'n', 's'] ∧ '/' ∉ ['t'] ∧
    dirs ([] ++ [['r', 'u', 'n', 's']]) = true ∧ dirs ([] ++ [['r', 'u', 'n', 's'], ['t'] ++ number 0]) = true ∧
    dirs ([] ++ [['r', 'u', 'n', 's'], ['r', 'u', 'n', 's']]) = false :=
  ⟨fun d => d != [['r', 'u', 'n', 's'], ['r', 'u', 'n', 's']], ⟨by decide, by decide, by decide, by decide⟩,
    by decide, by decide, by decide, by decide⟩

theorem chdir_gene (dirs : List Name → Bool) (base : List Name) (x : Name) (basename : List Char) (i : ℕ)
    (hb : '/' ∉ basename) (hbase : dirs base = true) (hd : dirs (base ++ [basename ++ number i]) = true) :
    chdir dirs (base ++ [x]) (genePath basename i) = some (base ++ [basename ++ number i]) := by
  have hp := proper_number basename i hb
  have hs : splitPath (['.', '.', '/'] ++ basename ++ number i) = [['.', '.'], basename ++ number i] := by
    have := splitPath_append ['.', '.'] (basename ++ number i) (by decide)
    rw [splitPath_name _ hp.2.2.2] at this
    simpa using this
  rw [chdir, genePath, if_neg (by simp), hs, enterAll, enter_up, List.dropLast_concat, if_pos hbase,
    Option.bind_some, enterAll, enter_proper _ _ _ hp, if_pos hd]
  rfl

/-- C126: if the name has no slash and the directories exist next to the one in which GENE was started, then every
task is in its directory, in whatever order the tasks are run. -/
theorem C126_gene (dirs : List Name → Bool) (base : List Name) (x : Name) (basename : List Char) (is : List ℕ)
    (hb : '/' ∉ basename) (hbase : dirs base = true)
    (hd : ∀ i ∈ is, dirs (base ++ [basename ++ number i]) = true) :
    geneRuns dirs basename is (base ++ [x]) = some (is.map fun i => base ++ [basename ++ number i]) := by
  induction is generalizing x with
  | nil => rfl
  | cons i is ih =>
    rw [geneRuns, chdir_gene _ _ _ _ _ hb hbase (hd i List.mem_cons_self), Option.bind_some,
      ih _ fun j hj => hd j (List.mem_cons_of_mem _ hj)]
    rfl

example : geneRuns (fun _ => true) ['g'] [0, 1, 0] [['h'], ['x']] =
    some [[['h'], ['g', '0']], [['h'], ['g', '1']], [['h'], ['g', '0']]] :=
  C126_gene (fun _ => true) [['h']] ['x'] ['g'] [0, 1, 0] (by decide) rfl (fun _ _ => rfl)

end Verif.TaskDirs
