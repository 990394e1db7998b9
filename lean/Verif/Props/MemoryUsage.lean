import Verif.Lemmas.MemoryUsage

/-!
# C127: The memory usage that is reported is that of the processes

The memory usage of a communicator is the sum of the resident (or virtual) sizes that the kernel reports
for its processes.
-/

namespace Verif.MemoryUsage

/-- The line of a field with a size: its name, blanks, the number, the unit. -/
def sizeLine (key : String) (blanks : List Char) (n : ℕ) : List Char :=
  key.toList ++ blanks ++ Nat.toDigits 10 n ++ " kB".toList

/-- The contents of a file with these lines. -/
def contents (lines : List (List Char)) : List Char := lines.flatMap (· ++ ['\n'])

/-- The file of a process that has `a` kB of resident and `b` kB of virtual memory: among its lines are
those of the two fields, and the names of these fields do not occur elsewhere. -/
structure Reports (lines : List (List Char)) (a b : ℕ) : Prop where
  plain : ∀ l ∈ lines, l ≠ [] ∧ '\n' ∉ l ∧ '\x00' ∉ l
  rss : ∃ w : List Char, w ≠ [] ∧ (∀ c ∈ w, c = ' ' ∨ c = '\t') ∧ sizeLine "VmRSS:" w a ∈ lines ∧
    ∀ l ∈ lines, "VmRSS:".toList <:+: l → l = sizeLine "VmRSS:" w a
  size : ∃ w : List Char, w ≠ [] ∧ (∀ c ∈ w, c = ' ' ∨ c = '\t') ∧ sizeLine "VmSize:" w b ∈ lines ∧
    ∀ l ∈ lines, "VmSize:".toList <:+: l → l = sizeLine "VmSize:" w b
  rss_lt : a < 18446744073709551616
  size_lt : b < 18446744073709551616

/-- **C127**, one process: from a file with less than 8192 characters exactly the two sizes are read,
whatever the other lines are and in which order the lines come.
Full statement: for all files (see `C127_name_violated` and `C127_long_violated`). -/
theorem C127_process_partial {lines : List (List Char)} {a b : ℕ} (h : Reports lines a b)
    (hlen : (contents lines).length < 8192) :
    getMemoryUsage (contents lines) = .ok (0, some a, some b) := by
  obtain ⟨w, hw, hw', hwl, hwu⟩ := h.rss
  obtain ⟨v, hv, hv', hvl, hvu⟩ := h.size
  have blank : ∀ u : List Char, (∀ c ∈ u, c = ' ' ∨ c = '\t') → ∀ c ∈ u, isSpace c = true := by
    intro u hu c hc
    rcases hu c hc with rfl | rfl <;> decide
  have hr : scanLine (sizeLine "VmRSS:" w a) = .ok (some a) :=
    (scanLine_field (key := "VmRSS:".toList) (by decide) hw (blank w hw') h.rss_lt).resolve_right
      (by decide)
  have hs : scanLine (sizeLine "VmSize:" v b) = .ok (some b) :=
    (scanLine_field (key := "VmSize:".toList) (by decide) hv (blank v hv') h.size_lt).resolve_right
      (by decide)
  have hnul : ∀ c ∈ contents lines, (c != '\x00') = true := by
    intro c hc
    simp only [contents, List.mem_flatMap, List.mem_append, List.mem_singleton] at hc
    obtain ⟨l, hl, hc⟩ := hc
    rcases hc with hc | rfl
    · simp only [bne_iff_ne]
      rintro rfl
      exact (h.plain l hl).2.2 hc
    · decide
  have hbuf : readBuffer (contents lines) = ⟨contents lines, true⟩ := by
    unfold readBuffer
    have e : (contents lines).take toRead = contents lines :=
      List.take_of_length_le (Nat.le_of_lt hlen)
    have e2 : (contents lines).takeWhile (· != '\x00') = contents lines :=
      takeWhile_all hnul
    have e3 : decide ((contents lines).length < toRead) = true := decide_eq_true hlen
    simp only [e, e2, e3, Bool.true_or]
  have hloop := loop_lines hr hs lines ⟨false, false, none, none⟩
    (fun l hl => ⟨(h.plain l hl).1, (h.plain l hl).2.1⟩) hwu hvu (by simp) (by simp)
    (Or.inr ⟨_, hwl, ⟨[], w ++ Nat.toDigits 10 a ++ " kB".toList, by
      simp only [sizeLine, List.append_assoc, List.nil_append]⟩⟩)
    (Or.inr ⟨_, hvl, ⟨[], v ++ Nat.toDigits 10 b ++ " kB".toList, by
      simp only [sizeLine, List.append_assoc, List.nil_append]⟩⟩)
  have hloop' : loop true (contents lines) ⟨false, false, none, none⟩
      = .ok ⟨true, true, some a, some b⟩ := hloop
  unfold getMemoryUsage
  simp only [hbuf, hloop', ok_bind]
  rfl

/-- The processes of a communicator: the lines of the file, the resident and the virtual size. -/
abbrev Procs := List (List (List Char) × ℕ × ℕ)

private theorem gather_ok (ps : Procs) (h : ∀ p ∈ ps, Reports p.1 p.2.1 p.2.2)
    (hlen : ∀ p ∈ ps, (contents p.1).length < 8192) :
    gather ((ps.map fun p => contents p.1).map getMemoryUsage)
      = .ok (ps.map fun p => (0, some p.2.1, some p.2.2)) := by
  induction ps with
  | nil => rfl
  | cons p ps ih =>
    simp only [List.map_cons, gather]
    rw [C127_process_partial (h p (by simp)) (hlen p (by simp)), ok_bind,
      ih (fun q hq => h q (by simp [hq])) (fun q hq => hlen q (by simp [hq])), ok_bind]

private theorem sumMod_some (xs : List ℕ) (h : xs.sum < 18446744073709551616) :
    sumMod (xs.map some) = some xs.sum := by
  induction xs with
  | nil => rfl
  | cons x xs ih =>
    rw [List.sum_cons] at h ⊢
    simp only [List.map_cons, sumMod]
    rw [ih (by omega)]
    simp only
    rw [Nat.mod_eq_of_lt h]

/-- **C127**, communicator: the values on all processes are the sums over all processes. -/
theorem C127_sum_partial {ps : Procs} (h : ∀ p ∈ ps, Reports p.1 p.2.1 p.2.2)
    (hlen : ∀ p ∈ ps, (contents p.1).length < 8192) (hne : ps ≠ [])
    (hr : (ps.map fun p => p.2.1).sum < 18446744073709551616)
    (hs : (ps.map fun p => p.2.2).sum < 18446744073709551616) :
    getAllMemoryUsage (ps.map fun p => contents p.1)
      = .ok (0, some (ps.map fun p => p.2.1).sum, some (ps.map fun p => p.2.2).sum) := by
  have hr' := sumMod_some _ hr
  have hs' := sumMod_some _ hs
  rw [List.map_map] at hr' hs'
  unfold getAllMemoryUsage
  rw [gather_ok ps h hlen, ok_bind]
  have h1 : ((ps.map fun p => ((0 : ℕ), some p.2.1, some p.2.2)).all (fun r => r.1 != 0)
      && !(ps.map fun p => ((0 : ℕ), some p.2.1, some p.2.2)).isEmpty) = false := by
    cases ps with
    | nil => exact absurd rfl hne
    | cons p ps => simp
  have h2 : (ps.map fun p => ((0 : ℕ), some p.2.1, some p.2.2)).any (fun r => r.1 != 0) = false := by
    simp
  simp only [h1, h2, Bool.false_eq_true, if_false, List.map_map]
  have e1 : ((fun r : ℕ × Option ℕ × Option ℕ => r.2.1) ∘
      fun p : List (List Char) × ℕ × ℕ => ((0 : ℕ), some p.2.1, some p.2.2))
      = (some ∘ fun p => p.2.1) := rfl
  have e2 : ((fun r : ℕ × Option ℕ × Option ℕ => r.2.2) ∘
      fun p : List (List Char) × ℕ × ℕ => ((0 : ℕ), some p.2.1, some p.2.2))
      = (some ∘ fun p => p.2.2) := rfl
  rw [e1, e2, hr', hs']

private theorem asLong_sub {a b : ℕ} (hb : b < 18446744073709551616)
    (h1 : (a : ℤ) - b < 9223372036854775808) (h2 : -9223372036854775808 ≤ (a : ℤ) - b) :
    asLong (subUnsigned a b) = (a : ℤ) - b := by
  unfold asLong subUnsigned
  split <;> omega

/-- **C127**, output: the differences to reference values that are printed are exact, also where the
usage has become smaller. -/
theorem C127_difference_partial {ps : Procs} (h : ∀ p ∈ ps, Reports p.1 p.2.1 p.2.2)
    (hlen : ∀ p ∈ ps, (contents p.1).length < 8192) (hne : ps ≠ [])
    (hr : (ps.map fun p => p.2.1).sum < 9223372036854775808)
    (hs : (ps.map fun p => p.2.2).sum < 9223372036854775808) {refRss refSize : ℕ}
    (hrr : refRss < 9223372036854775808) (hrs : refSize < 9223372036854775808) :
    printMinusRef refRss refSize (ps.map fun p => contents p.1)
      = .ok (ps.length, (((ps.map fun p => p.2.1).sum : ℕ) : ℤ) - refRss,
          (((ps.map fun p => p.2.2).sum : ℕ) : ℤ) - refSize) := by
  unfold printMinusRef
  rw [C127_sum_partial h hlen hne (by omega) (by omega), ok_bind]
  simp only [List.length_map]
  rw [asLong_sub (by omega) (by omega) (by omega),
    asLong_sub (by omega) (by omega) (by omega)]

/-- A status file like that of a kernel. -/
def exampleLines : List (List Char) :=
  ["Name:\tct".toList, "VmSize:\t  5560 kB".toList, "Threads:\t1".toList, "VmRSS:\t   310 kB".toList]

theorem exampleLines_reports : Reports exampleLines 310 5560 where
  plain := by decide
  rss := ⟨"\t   ".toList, by decide, by decide, by decide, by decide⟩
  size := ⟨"\t  ".toList, by decide, by decide, by decide, by decide⟩
  rss_lt := by decide
  size_lt := by decide

example : getMemoryUsage (contents exampleLines) = .ok (0, some 310, some 5560) :=
  C127_process_partial exampleLines_reports (by decide)

example : getAllMemoryUsage [contents exampleLines, contents exampleLines]
    = .ok (0, some 620, some 11120) :=
  C127_sum_partial (ps := [(exampleLines, 310, 5560), (exampleLines, 310, 5560)])
    (by simp [exampleLines_reports]) (by decide) (by simp) (by simp) (by simp)

example : printMinusRef 700 11000 [contents exampleLines, contents exampleLines]
    = .ok (2, -80, 120) :=
  C127_difference_partial (ps := [(exampleLines, 310, 5560), (exampleLines, 310, 5560)])
    (by simp [exampleLines_reports]) (by decide) (by simp) (by simp) (by simp) (by simp) (by simp)

/-- **C127**, return code: success is only reported if both fields are in the file, whatever it is. -/
theorem C127_success {file : List Char} {a b : Option ℕ} (h : getMemoryUsage file = .ok (0, a, b)) :
    "VmRSS:".toList <:+: file ∧ "VmSize:".toList <:+: file := by
  unfold getMemoryUsage at h
  simp only at h
  cases hl : loop (readBuffer file).terminated (readBuffer file).chars ⟨false, false, none, none⟩ with
  | error => rw [hl] at h; cases h
  | stuck => rw [hl] at h; cases h
  | ok st =>
    rw [hl, ok_bind] at h
    obtain ⟨h1, h2⟩ := loop_found hl
    have hin : (readBuffer file).chars <:+: file :=
      (List.takeWhile_prefix _).isInfix.trans (List.take_prefix _ _).isInfix
    by_cases hf : (st.foundRss && st.foundSize) = true
    · rw [Bool.and_eq_true] at hf
      exact ⟨((h1 hf.1).resolve_left (by simp)).trans hin, ((h2 hf.2).resolve_left (by simp)).trans hin⟩
    · rw [if_neg hf] at h
      cases h

example : "VmRSS:".toList <:+: contents exampleLines ∧ "VmSize:".toList <:+: contents exampleLines :=
  C127_success (C127_process_partial exampleLines_reports (by decide))

/-- The lines of a process called `7 VmRSS:` that has 310 kB of resident memory. -/
def nameLines : List (List Char) :=
  ["Name:\t7 VmRSS:".toList, "VmSize:\t  5560 kB".toList, "VmRSS:\t   310 kB".toList]

/-- **C127** fails for a program whose name has the name of a field: the search is not limited to the
beginning of lines. Here success is reported, but 7 is the number in the name. -/
theorem C127_name_violated :
    sizeLine "VmRSS:" "\t   ".toList 310 ∈ nameLines ∧
    getMemoryUsage (contents nameLines) = .ok (0, some 7, some 5560) := by
  refine ⟨by decide, ?_⟩
  have hb : readBuffer (contents nameLines) = ⟨contents nameLines, true⟩ := by
    unfold readBuffer
    have e : (contents nameLines).take toRead = contents nameLines :=
      List.take_of_length_le (by decide)
    have e2 : (contents nameLines).takeWhile (· != '\x00') = contents nameLines := by decide
    have e3 : decide ((contents nameLines).length < toRead) = true := by decide
    simp only [e, e2, e3, Bool.true_or]
  have hsplit : contents nameLines = "Name:\t7 VmRSS:".toList ++ '\n' ::
      ("VmSize:\t  5560 kB".toList ++ '\n' :: ("VmRSS:\t   310 kB".toList ++ '\n' :: [])) := by decide
  unfold getMemoryUsage
  simp only [hb]
  rw [hsplit, loop_line (by decide) (by decide), if_neg (by decide)]
  have s1 : (stepRss "Name:\t7 VmRSS:".toList ⟨false, false, none, none⟩).bind
      (stepSize "Name:\t7 VmRSS:".toList) = .ok ⟨true, false, some 7, none⟩ := by decide
  rw [s1, ok_bind, loop_line (by decide) (by decide), if_neg (by decide)]
  have s2 : (stepRss "VmSize:\t  5560 kB".toList ⟨true, false, some 7, none⟩).bind
      (stepSize "VmSize:\t  5560 kB".toList) = .ok ⟨true, true, some 7, some 5560⟩ := by decide
  rw [s2, ok_bind, loop_line (by decide) (by decide), if_pos (by decide), ok_bind]
  rfl

/-- **C127** fails for long files, for example of a user that is in many groups: if the field of the
resident size does not begin in the first 8192 characters the buffer is read beyond its end, because no
null character ends it. -/
theorem C127_long_violated {file : List Char} (hlen : 8192 ≤ file.length) (hnul : '\x00' ∉ file)
    (hr : ¬ "VmRSS:".toList <:+: file.take 8192) : getMemoryUsage file = .stuck := by
  have hb : readBuffer file = ⟨file.take 8192, false⟩ := by
    unfold readBuffer
    have hn : '\x00' ∉ file.take 8192 := fun hc => hnul (List.mem_of_mem_take hc)
    have e2 : (file.take toRead).takeWhile (· != '\x00') = file.take 8192 := by
      refine takeWhile_all fun c hc => ?_
      simp only [bne_iff_ne]
      rintro rfl
      exact hn hc
    have e3 : decide (file.length < toRead) = false := decide_eq_false (Nat.not_lt.mpr hlen)
    have e4 : (file.take toRead).contains '\x00' = false := by
      simpa [toRead] using hn
    simp only [e2, e3, e4, Bool.or_self]
  have := loop_unterminated (rest := file.take 8192) (st := ⟨false, false, none, none⟩) rfl hr
  unfold getMemoryUsage
  simp only [hb]
  cases hl : loop false (file.take 8192) ⟨false, false, none, none⟩ with
  | ok x => exact absurd hl (this x).1
  | error => exact absurd hl (this ⟨false, false, none, none⟩).2
  | stuck => rfl

/-- A file whose second line is longer than the buffer, with both fields after it. -/
example : getMemoryUsage
    ("Name:\tct\nGroups:\t".toList ++ List.replicate 9000 '1' ++ contents exampleLines) = .stuck := by
  refine C127_long_violated (by
    rw [List.length_append, List.length_append, List.length_replicate]; omega) ?_ ?_
  · simp only [List.mem_append, List.mem_replicate]
    rintro ((h | h) | h)
    · revert h; decide
    · exact absurd h.2 (by decide)
    · revert h; decide
  · rw [List.take_append_of_le_length (by rw [List.length_append, List.length_replicate]; omega)]
    intro h
    have h' := h.trans (List.take_prefix _ _).isInfix
    have hm : 'V' ∈ "Name:\tct\nGroups:\t".toList ++ List.replicate 9000 '1' := h'.subset (by decide)
    simp only [List.mem_append, List.mem_replicate] at hm
    rcases hm with hm | hm
    · revert hm; decide
    · exact absurd hm.2 (by decide)

private theorem gather_mem {xs : List (Outcome (ℕ × Option ℕ × Option ℕ))}
    {rs : List (ℕ × Option ℕ × Option ℕ)} (h : gather xs = .ok rs) {r : ℕ × Option ℕ × Option ℕ}
    (hr : Outcome.ok r ∈ xs) : r ∈ rs := by
  induction xs generalizing rs with
  | nil => simp at hr
  | cons x xs ih =>
    simp only [gather] at h
    cases x with
    | error => cases h
    | stuck => cases h
    | ok a =>
      rw [ok_bind] at h
      cases hg : gather xs with
      | error => rw [hg] at h; cases h
      | stuck => rw [hg] at h; cases h
      | ok as =>
        rw [hg, ok_bind] at h
        cases h
        rcases List.mem_cons.mp hr with hr | hr
        · cases hr; simp
        · exact List.mem_cons_of_mem _ (ih hg hr)

/-- **C127** fails if one process does not find the fields and another one does: the former returns
before `MPI_Allreduce`, in which the latter waits. There is no result, whatever the others do. -/
theorem C127_one_fails_violated {files : List (List Char)} {f g : List Char} (hf : f ∈ files)
    (hg : g ∈ files) {a b c d : Option ℕ} (h1 : getMemoryUsage f = .ok (1, a, b))
    (h2 : getMemoryUsage g = .ok (0, c, d)) : ∀ r, getAllMemoryUsage files ≠ .ok r := by
  intro r
  unfold getAllMemoryUsage
  cases hgat : gather (files.map getMemoryUsage) with
  | error => simp [Outcome.bind]
  | stuck => simp [Outcome.bind]
  | ok rs =>
    have m1 : (1, a, b) ∈ rs := gather_mem hgat (List.mem_map.mpr ⟨f, hf, h1⟩)
    have m2 : (0, c, d) ∈ rs := gather_mem hgat (List.mem_map.mpr ⟨g, hg, h2⟩)
    rw [ok_bind]
    have e1 : (rs.all (fun r => r.1 != 0) && !rs.isEmpty) = false := by
      have : rs.all (fun r => r.1 != 0) = false := by
        rw [List.all_eq_false]
        exact ⟨_, m2, by simp⟩
      rw [this, Bool.false_and]
    have e2 : rs.any (fun r => r.1 != 0) = true := by
      rw [List.any_eq_true]
      exact ⟨_, m1, by simp⟩
    simp only [e1, e2, Bool.false_eq_true, if_false, if_true]
    simp

/-- An empty file has no fields. -/
theorem getMemoryUsage_nil : getMemoryUsage [] = .ok (1, none, none) := by
  unfold getMemoryUsage
  have hb : readBuffer [] = ⟨[], true⟩ := rfl
  simp only [hb]
  rw [loop_nil, ok_bind]
  rfl

example : ∀ r, getAllMemoryUsage [[], contents exampleLines] ≠ .ok r :=
  C127_one_fails_violated (f := []) (g := contents exampleLines) (by simp) (by simp)
    getMemoryUsage_nil (C127_process_partial exampleLines_reports (by decide))

/-- **C127** fails if no process finds the fields: the return code is not looked at, and variables that
have not been assigned are printed. -/
theorem C127_print_violated :
    getAllMemoryUsage [[]] = .ok (1, none, none) ∧ ∀ x y, printMinusRef x y [[]] = .stuck := by
  have h : getAllMemoryUsage [[]] = .ok (1, none, none) := by
    unfold getAllMemoryUsage
    simp only [List.map_cons, List.map_nil, gather, getMemoryUsage_nil, ok_bind]
    rfl
  refine ⟨h, fun x y => ?_⟩
  unfold printMinusRef
  rw [h, ok_bind]

end Verif.MemoryUsage
