import Verif.Lemmas.FileIO

/-!
# C35, C36, C61: files with the data of all processes
-/

namespace Verif

variable {α : Type}

/-- A codec for the examples: values of two bytes. -/
def pairCodec : Codec (UInt8 × UInt8) where
  size := 2
  enc x j := if j = 0 then x.1 else x.2
  dec b := (b 0, b 1)
  size_pos := by decide
  dec_enc x b h := by
    have h0 := h 0 (by decide)
    have h1 := h 1 (by decide)
    simp only [if_true, one_ne_zero, if_false] at h0 h1
    rw [h0, h1]

/-- Where the values of process `r` begin in the file: after those of the processes before it. -/
theorem position_eq_before (old : List (List α)) (r : ℕ) :
    getPositionFromNumValues (old.map List.length) r = (old.take r).flatten.length := by
  simp [getPositionFromNumValues, List.length_flatten]

/-! ### C35 -/

/-- **C35**, round trip, under two conditions that are not part of the property: no process has
`2 ^ 31` values or more (the counts of MPI are `int`s), and a file that is there before and is not
replaced is not longer than what is written (see `C35_violated`). The processes may write in any
order, and `old`, what is in the memory of the processes before reading, is arbitrary apart from the
number of values of each process. -/
theorem C35_round_trip_partial (c : Codec α) (prev : Option DiskFile) (replace : Bool)
    (order : List ℕ) (data old : List (List α)) (horder : order.Perm (List.range data.length))
    (hsize : ∀ d ∈ data, d.length < 2 ^ 31)
    (hprev : replace = true ∨ ∀ f, prev = some f → f.len ≤ data.flatten.length * c.size)
    (hold : old.map List.length = data.map List.length) :
    readValuesConsecutive c (some (writeValuesConsecutive c prev replace order data)) old =
      .ok data := by
  rw [List.length_flatten] at hprev
  obtain ⟨hlen, hval⟩ := written_all c prev replace order data horder hsize hprev
  generalize writeValuesConsecutive c prev replace order data = f at hlen hval
  have hl : old.length = data.length := by simpa using congrArg List.length hold
  unfold readValuesConsecutive checkFileSizeConsecutive
  simp only [hold, hlen, beq_self_eq_true, if_true, Outcome.ok.injEq]
  apply List.ext_getElem
  · simp [hl]
  · intro r h1 h2
    simp only [List.getElem_map, List.getElem_range]
    have hor : (old.getD r []).length = (data.getD r []).length := by
      rw [← getD_map_length, ← getD_map_length, hold]
    have hdr : data.getD r [] = data[r] := List.getD_eq_getElem _ _ h2
    have hend := position_end_le (data.map List.length) r
    rw [getD_map_length] at hend
    rw [hor, read_complete c f _ _ _ hlen (by rw [hdr]; exact hsize _ (List.getElem_mem _)) hend]
    have hdrop : (old.getD r []).drop ((List.range (data.getD r []).length).map fun i => f.value c
        (getPositionFromNumValues (data.map List.length) r + i)).length = [] := by
      apply List.drop_eq_nil_of_le
      simp only [List.length_map, List.length_range]
      omega
    rw [hdrop, List.append_nil]
    apply List.ext_getElem
    · rw [List.length_map, List.length_range, hdr]
    · intro k h3 h4
      simp only [List.getElem_map, List.getElem_range]
      rw [hval r h2 k (by rw [hdr]; exact h4)]
      simp only [hdr]

example : readValuesConsecutive pairCodec (some (writeValuesConsecutive pairCodec
    (some ⟨3, fun _ => 7⟩) false [2, 0, 1] [[(1, 2), (3, 4)], [], [(5, 6)]]))
    [[(0, 0), (0, 0)], [], [(0, 0)]] = .ok [[(1, 2), (3, 4)], [], [(5, 6)]] :=
  C35_round_trip_partial pairCodec _ _ _ _ _ (by decide) (by decide)
    (.inr fun f hf => by cases hf; decide) rfl

/-- **C35**, error: if the size of the file is not that of the values of all processes, or if there is
no file, reading throws. -/
theorem C35_error (c : Codec α) (file : Option DiskFile) (old : List (List α))
    (h : ∀ f, file = some f → f.len ≠ old.flatten.length * c.size) :
    readValuesConsecutive c file old = .error := by
  cases file with
  | none => rfl
  | some f =>
    unfold readValuesConsecutive checkFileSizeConsecutive
    rw [List.length_flatten] at h
    simp [h f rfl]

example : readValuesConsecutive pairCodec (some ⟨3, fun _ => 7⟩) [[(0, 0)], [(0, 0)]] = .error :=
  C35_error _ _ _ (by intro f hf; cases hf; decide)

/-- **C35**, no wrong data: if reading does not throw, the processes together have, in the order of
their ranks, exactly the values of the file. (Every process has fewer than `2 ^ 31` values.) -/
theorem C35_data_partial (c : Codec α) (file : Option DiskFile) (old res : List (List α))
    (hsize : ∀ d ∈ old, d.length < 2 ^ 31) (h : readValuesConsecutive c file old = .ok res) :
    ∃ f, file = some f ∧ res.map List.length = old.map List.length ∧
      ∀ r, ∀ hr : r < res.length, ∀ k, ∀ hk : k < res[r].length,
        res[r][k] = f.value c ((res.take r).flatten.length + k) := by
  cases file with
  | none => simp [readValuesConsecutive] at h
  | some f =>
    unfold readValuesConsecutive checkFileSizeConsecutive at h
    simp only at h
    split at h
    · next hc =>
      have hlen : f.len = (old.map List.length).sum * c.size := by simpa using hc
      have hres : res = (List.range old.length).map fun r => (List.range (old.getD r []).length).map
          fun i => f.value c (getPositionFromNumValues (old.map List.length) r + i) := by
        rw [← (Outcome.ok.inj h)]
        apply List.map_congr_left
        intro r hr
        have hr' : r < old.length := by simpa using hr
        have hend := position_end_le (old.map List.length) r
        rw [getD_map_length] at hend
        rw [read_complete c f _ _ _ hlen
          (by rw [List.getD_eq_getElem _ _ hr']; exact hsize _ (List.getElem_mem _)) hend]
        simp
      have hmap : res.map List.length = old.map List.length := by
        rw [hres]
        apply List.ext_getElem
        · simp
        · intro i h1 h2
          simp only [List.length_map, List.length_range] at h1
          simp [h1]
      refine ⟨f, rfl, hmap, ?_⟩
      intro r hr k hk
      rw [← position_eq_before, hmap]
      simp only [hres, List.getElem_map, List.getElem_range]
    · exact absurd h (by simp)

/-- The property as stated does not hold: a longer file of the same name that is there before and not
replaced (`replaceExistingFile` is `false` by default, and `writeDSGsToDisk` and
`writeSubspaceSizesToFile` do not change that) keeps its end, and the data just written cannot be read
back. -/
theorem C35_violated :
    ¬ ∀ (prev : Option DiskFile) (replace : Bool) (data : List (List (UInt8 × UInt8))),
      readValuesConsecutive pairCodec (some (writeValuesConsecutive pairCodec prev replace
        (List.range data.length) data)) data = .ok data := by
  intro h
  have := h (some ⟨6, fun _ => 7⟩) false [[(1, 2)], [(3, 4)]]
  rw [C35_error] at this
  · exact absurd this (by simp)
  · intro f hf
    rw [← Option.some.inj hf]
    decide

/-! ### C36 -/

theorem readReduceAll_eq (c : Codec α) (z : α) (files : List DiskFile) (hf : files ≠ [])
    (comb : List (List α) → List α → Outcome (List α)) (g : ℕ → α → α)
    (hcomb : CombOk c files comb g) (b : ℤ) (old : List (List α)) (hb : 0 < b) (hb' : b < 2 ^ 31)
    (hsize : ∀ d ∈ old, d.length < 2 ^ 31)
    (hlen : ∀ f ∈ files, f.len = old.flatten.length * c.size) :
    readReduceAll c z (files.map some) comb b old =
      if ∀ d ∈ old, ∀ e ∈ old, (d.length + b.toNat - 1) / b.toNat = (e.length + b.toNat - 1) / b.toNat
      then .ok ((List.range old.length).map fun r => (old.getD r []).mapIdx fun i x =>
        g ((old.take r).flatten.length + i) x)
      else .stuck := by
  rw [List.length_flatten] at hlen
  unfold readReduceAll
  simp only
  have hfm : List.filterMap id (files.map some) = files := by
    simp [List.filterMap_map]
  rw [if_neg ?_, if_neg (by omega), if_neg ?_, hfm]
  · have hres : ((List.range old.length).map fun r =>
        readReduceLoop c z files comb ((old.map List.length).getD r 0) b.toNat
          (getPositionFromNumValues (old.map List.length) r) 0
          (List.replicate files.length (List.replicate b.toNat z)) (old.getD r [])) =
        ((List.range old.length).map fun r => ((old.getD r []).mapIdx fun i x =>
          g ((old.take r).flatten.length + i) x,
          ((old.getD r []).length + b.toNat - 1) / b.toNat)).map .ok := by
      rw [List.map_map]
      apply List.map_congr_left
      intro r hr
      have hr' : r < old.length := by simpa using hr
      have hend := position_end_le (old.map List.length) r
      have := readReduceLoop_eq c z files hf comb g hcomb (old.map List.length).sum
        (getPositionFromNumValues (old.map List.length) r) hlen ((old.map List.length).getD r 0)
        hend _ 0 b.toNat (List.replicate files.length (List.replicate b.toNat z)) (old.getD r [])
        rfl (by omega) (by omega) (by omega) (by simp)
        (by intro buf hbuf; rw [List.eq_of_mem_replicate hbuf]; simp) (by rw [getD_map_length])
      rw [Nat.add_zero] at this
      rw [this, reduced_all, getD_map_length, position_eq_before]
      rfl
    rw [collect_ok _ _ hres]
    simp only [Outcome.bind]
    have hiff : (((List.range old.length).map fun r => ((old.getD r []).mapIdx fun i x =>
          g ((old.take r).flatten.length + i) x,
          ((old.getD r []).length + b.toNat - 1) / b.toNat)).all fun x =>
        ((List.range old.length).map fun r => ((old.getD r []).mapIdx fun i x =>
          g ((old.take r).flatten.length + i) x,
          ((old.getD r []).length + b.toNat - 1) / b.toNat)).all fun y => x.2 == y.2) = true ↔
        ∀ d ∈ old, ∀ e ∈ old,
          (d.length + b.toNat - 1) / b.toNat = (e.length + b.toNat - 1) / b.toNat := by
      simp only [List.all_map, List.all_eq_true, List.mem_range, Function.comp_apply, beq_iff_eq]
      constructor
      · intro h d hd e he
        obtain ⟨i, hi, rfl⟩ := List.getElem_of_mem hd
        obtain ⟨j, hj, rfl⟩ := List.getElem_of_mem he
        have := h i hi j hj
        rwa [List.getD_eq_getElem _ _ hi, List.getD_eq_getElem _ _ hj] at this
      · intro h i hi j hj
        rw [List.getD_eq_getElem _ _ hi, List.getD_eq_getElem _ _ hj]
        exact h _ (List.getElem_mem _) _ (List.getElem_mem _)
    by_cases hall : ∀ d ∈ old, ∀ e ∈ old,
        (d.length + b.toNat - 1) / b.toNat = (e.length + b.toNat - 1) / b.toNat
    · rw [if_pos (hiff.2 hall), if_pos hall, List.map_map]
      rfl
    · rw [if_neg (fun h => hall (hiff.1 h)), if_neg hall]
  · simp only [List.any_map, List.any_eq_true, Function.comp_apply, decide_eq_true_eq]
    rintro ⟨d, hd, h⟩
    have := hsize d hd
    omega
  · simp only [List.any_map, List.any_eq_true, Function.comp_apply, Option.elim_some]
    rintro ⟨f, hfm, h⟩
    simp [checkFileSizeConsecutive, hlen f hfm] at h

/-- **C36**, one file: if all processes need the same number `⌈n / b⌉` of passes, each process ends
with each of its values combined exactly once with the value of the file at its place. The property
without that condition is refuted by `C36_violated`; `C36_ok_iff` shows that the condition is also
necessary. (Fewer than `2 ^ 31` values per process, and a positive `int` as buffer size.) -/
theorem C36_partial (c : Codec α) (z : α) (f : DiskFile) (op : α → α → α) (b : ℤ)
    (old : List (List α)) (hb : 0 < b) (hb' : b < 2 ^ 31) (hsize : ∀ d ∈ old, d.length < 2 ^ 31)
    (hlen : f.len = old.flatten.length * c.size)
    (hpass : ∀ d ∈ old, ∀ e ∈ old,
      (d.length + b.toNat - 1) / b.toNat = (e.length + b.toNat - 1) / b.toNat) :
    readReduceValuesConsecutive c z (some f) op b old =
      .ok ((List.range old.length).map fun r => (old.getD r []).mapIdx fun i x =>
        op (f.value c ((old.take r).flatten.length + i)) x) := by
  have := readReduceAll_eq c z [f] (by simp) (transform1 op) _ (combOk_transform1 c f op) b old hb hb'
    hsize (by simpa using hlen)
  rw [if_pos hpass] at this
  exact this

/-- **C36**, two files: like `C36_partial`, each value is combined with the values of both files. (The
code reads further files, too, but does not use their values.) -/
theorem C36_two_files_partial (c : Codec α) (z : α) (f0 f1 : DiskFile) (op : α → α → α → α) (b : ℤ)
    (old : List (List α)) (hb : 0 < b) (hb' : b < 2 ^ 31) (hsize : ∀ d ∈ old, d.length < 2 ^ 31)
    (hlen0 : f0.len = old.flatten.length * c.size) (hlen1 : f1.len = old.flatten.length * c.size)
    (hpass : ∀ d ∈ old, ∀ e ∈ old,
      (d.length + b.toNat - 1) / b.toNat = (e.length + b.toNat - 1) / b.toNat) :
    readMultipleReduceValuesConsecutive c z [some f0, some f1] op b old =
      .ok ((List.range old.length).map fun r => (old.getD r []).mapIdx fun i x =>
        op (f0.value c ((old.take r).flatten.length + i)) x
          (f1.value c ((old.take r).flatten.length + i))) := by
  have := readReduceAll_eq c z [f0, f1] (by simp) (transform2 op) _ (combOk_transform2 c f0 f1 op) b
    old hb hb' hsize (by simp [hlen0, hlen1])
  rw [if_pos hpass] at this
  exact this

/-- **C36**, for a file that was written from the values `data` of processes with the same numbers of
values. -/
theorem C36_written_partial (c : Codec α) (z : α) (prev : Option DiskFile) (replace : Bool)
    (order : List ℕ) (data old : List (List α)) (op : α → α → α) (b : ℤ)
    (horder : order.Perm (List.range data.length))
    (hprev : replace = true ∨ ∀ f, prev = some f → f.len ≤ data.flatten.length * c.size)
    (hold : old.map List.length = data.map List.length) (hb : 0 < b) (hb' : b < 2 ^ 31)
    (hsize : ∀ d ∈ data, d.length < 2 ^ 31)
    (hpass : ∀ d ∈ data, ∀ e ∈ data,
      (d.length + b.toNat - 1) / b.toNat = (e.length + b.toNat - 1) / b.toNat) :
    readReduceValuesConsecutive c z (some (writeValuesConsecutive c prev replace order data)) op b
      old = .ok (List.zipWith (List.zipWith op) data old) := by
  rw [List.length_flatten] at hprev
  obtain ⟨hlen, hval⟩ := written_all c prev replace order data horder hsize hprev
  have hl : old.length = data.length := by simpa using congrArg List.length hold
  have hlr : ∀ r, ∀ h1 : r < old.length, ∀ h2 : r < data.length, old[r].length = data[r].length := by
    intro r h1 h2
    have := getD_map_length old r
    rw [hold, getD_map_length, List.getD_eq_getElem _ _ h1, List.getD_eq_getElem _ _ h2] at this
    exact this.symm
  have hmem : ∀ d ∈ old, ∃ e ∈ data, d.length = e.length := by
    intro d hd
    obtain ⟨i, hi, rfl⟩ := List.getElem_of_mem hd
    exact ⟨data[i], List.getElem_mem _, hlr i hi (by omega)⟩
  rw [C36_partial c z _ op b old hb hb'
    (fun d hd => by obtain ⟨e, he, h⟩ := hmem d hd; rw [h]; exact hsize e he)
    (by rw [hlen, List.length_flatten, hold])
    (fun d hd e he => by
      obtain ⟨d', hd', h⟩ := hmem d hd
      obtain ⟨e', he', h'⟩ := hmem e he
      rw [h, h']
      exact hpass d' hd' e' he')]
  generalize writeValuesConsecutive c prev replace order data = f at hlen hval
  congr 1
  apply List.ext_getElem
  · simp [hl]
  · intro r h1 h2
    simp only [List.length_map, List.length_range] at h1
    have h3 : r < data.length := by omega
    simp only [List.getElem_map, List.getElem_range, List.getElem_zipWith]
    rw [List.getD_eq_getElem _ _ h1, ← position_eq_before, hold]
    apply List.ext_getElem
    · simp [hlr r h1 h3]
    · intro k h4 h5
      simp only [List.length_mapIdx] at h4
      have := hval r h3 k (by rw [List.getD_eq_getElem _ _ h3]; have := hlr r h1 h3; omega)
      simp only [List.getElem_mapIdx, List.getElem_zipWith, this]
      congr 1
      simp [h3]

example : readReduceValuesConsecutive pairCodec (0, 0) (some (writeValuesConsecutive pairCodec none
    false [1, 0] [[(1, 2), (3, 4), (1, 1)], [(5, 6), (7, 8), (2, 2), (4, 4)]]))
    (fun a x => (a.1 + x.1, a.2 + x.2)) 2
    [[(1, 1), (1, 1), (1, 1)], [(1, 1), (1, 1), (1, 1), (1, 1)]] =
      .ok [[(2, 3), (4, 5), (2, 2)], [(6, 7), (8, 9), (3, 3), (5, 5)]] :=
  C36_written_partial pairCodec (0, 0) none false [1, 0] _ _ _ 2 (by decide) (by simp) rfl (by decide)
    (by decide) (by decide) (by decide)

/-- **C36**: a missing file, a file of another size, or a negative size of the buffer is an error on all
processes, before any value has changed. -/
theorem C36_error (c : Codec α) (z : α) (file : Option DiskFile) (op : α → α → α) (b : ℤ)
    (old : List (List α))
    (h : b < 0 ∨ ∀ f, file = some f → f.len ≠ old.flatten.length * c.size) :
    readReduceValuesConsecutive c z file op b old = .error := by
  unfold readReduceValuesConsecutive readReduceAll
  simp only
  by_cases hc : [file].any (fun f => f.elim true
      fun f => !checkFileSizeConsecutive c f (old.map List.length)) = true
  · rw [if_pos hc]
  · rw [if_neg hc]
    rcases h with h | h
    · rw [if_pos h]
    · refine absurd ?_ hc
      rw [List.length_flatten] at h
      cases file with
      | none => simp
      | some f => simp [checkFileSizeConsecutive, h f rfl]

example : readReduceValuesConsecutive pairCodec (0, 0) (some ⟨4, fun _ => 7⟩)
    (fun a x => (a.1 + x.1, a.2 + x.2)) (-1) [[(0, 0)], [(0, 0)]] = .error :=
  C36_error _ _ _ _ _ _ (.inl (by decide))

/-- **C36**, several files: the same for any of them. -/
theorem C36_multiple_error (c : Codec α) (z : α) (files : List (Option DiskFile))
    (op : α → α → α → α) (b : ℤ) (old : List (List α))
    (h : b < 0 ∨ ∃ file ∈ files, ∀ f, file = some f → f.len ≠ old.flatten.length * c.size) :
    readMultipleReduceValuesConsecutive c z files op b old = .error := by
  unfold readMultipleReduceValuesConsecutive readReduceAll
  simp only
  by_cases hc : files.any (fun f => f.elim true
      fun f => !checkFileSizeConsecutive c f (old.map List.length)) = true
  · rw [if_pos hc]
  · rw [if_neg hc]
    rcases h with h | ⟨file, hm, h⟩
    · rw [if_pos h]
    · refine absurd (List.any_eq_true.2 ⟨file, hm, ?_⟩) hc
      rw [List.length_flatten] at h
      cases file with
      | none => simp
      | some f => simp [checkFileSizeConsecutive, h f rfl]

example : readMultipleReduceValuesConsecutive pairCodec (0, 0) [some ⟨4, fun _ => 7⟩, none]
    (fun a x y => (a.1 + x.1 + y.1, a.2 + x.2 + y.2)) 5 [[(0, 0)], [(0, 0)]] = .error :=
  C36_multiple_error _ _ _ _ _ _ (.inr ⟨none, by simp, by simp⟩)

/-- The processes can finish exactly if they all need the same number of passes. -/
theorem C36_ok_iff (c : Codec α) (z : α) (f : DiskFile) (op : α → α → α) (b : ℤ)
    (old : List (List α)) (hb : 0 < b) (hb' : b < 2 ^ 31) (hsize : ∀ d ∈ old, d.length < 2 ^ 31)
    (hlen : f.len = old.flatten.length * c.size) :
    (∃ res, readReduceValuesConsecutive c z (some f) op b old = .ok res) ↔
      ∀ d ∈ old, ∀ e ∈ old,
        (d.length + b.toNat - 1) / b.toNat = (e.length + b.toNat - 1) / b.toNat := by
  have := readReduceAll_eq c z [f] (by simp) (transform1 op) _ (combOk_transform1 c f op) b old hb hb'
    hsize (by simpa using hlen)
  unfold readReduceValuesConsecutive
  simp only [List.map_cons, List.map_nil] at this
  rw [this]
  split
  · next h => exact ⟨fun _ => h, fun _ => ⟨_, rfl⟩⟩
  · next h => exact ⟨fun ⟨_, he⟩ => absurd he (by simp), fun h' => absurd h' h⟩

/-- The property as stated does not hold: two processes with one and three values and a buffer of two
values make one and two collective reads. -/
theorem C36_violated :
    ¬ ∀ (f : DiskFile) (b : ℤ) (old : List (List (UInt8 × UInt8))), 0 < b → b < 2 ^ 31 →
      (∀ d ∈ old, d.length < 2 ^ 31) → f.len = old.flatten.length * pairCodec.size →
      ∃ res, readReduceValuesConsecutive pairCodec (0, 0) (some f)
        (fun a x => (a.1 + x.1, a.2 + x.2)) b old = .ok res := by
  intro h
  have := (C36_ok_iff pairCodec (0, 0) ⟨8, fun _ => 1⟩ (fun a x => (a.1 + x.1, a.2 + x.2)) 2
    [[(0, 0)], [(0, 0), (0, 0), (0, 0)]] (by decide) (by decide) (by decide) (by decide)).1
    (h _ _ _ (by decide) (by decide) (by decide) (by decide))
  revert this
  decide

/-! ### C61 -/

/-- **C61**: the file is the concatenation of the pieces in rank order. (A total of `2 ^ 31` bytes or
more is not representable in the `int`s of the code, see `C61_violated`.) -/
theorem C61_concatenated_partial (pieces : List (List UInt8)) (h : pieces.flatten.length < 2 ^ 31) :
    writeConcatenatedFileRootOnly pieces = .ok pieces.flatten := by
  rw [List.length_flatten] at h
  unfold writeConcatenatedFileRootOnly gathervChars
  simp only
  rw [if_neg (by omega)]
  have := gatherv_go pieces [] (List.replicate (pieces.map List.length).sum 0) (by simp)
  simpa using this

example : writeConcatenatedFileRootOnly [[1, 2], [], [3]] = .ok [1, 2, 3] :=
  C61_concatenated_partial _ (by decide)

/-- **C61**, for files that are written with MPI-IO (l.47 and l.219): the values of the file are those
of the processes, one after the other in rank order. (Conditions as in `C35_round_trip_partial`.) -/
theorem C61_consecutive_partial (c : Codec α) (prev : Option DiskFile) (replace : Bool)
    (order : List ℕ) (data : List (List α)) (horder : order.Perm (List.range data.length))
    (hsize : ∀ d ∈ data, d.length < 2 ^ 31)
    (hprev : replace = true ∨ ∀ f, prev = some f → f.len ≤ data.flatten.length * c.size) :
    (writeValuesConsecutive c prev replace order data).len = data.flatten.length * c.size ∧
      (List.range data.flatten.length).map
        ((writeValuesConsecutive c prev replace order data).value c) = data.flatten := by
  rw [List.length_flatten] at hprev
  obtain ⟨hlen, hval⟩ := written_all c prev replace order data horder hsize hprev
  generalize writeValuesConsecutive c prev replace order data = f at hlen hval
  refine ⟨by rw [List.length_flatten]; exact hlen, ?_⟩
  have key : ∀ n, n ≤ data.length →
      (List.range (data.take n).flatten.length).map (f.value c) = (data.take n).flatten := by
    intro n
    induction n with
    | zero => simp
    | succ n ih =>
      intro hn
      have hn' : n < data.length := by omega
      rw [List.take_add_one, List.getElem?_eq_getElem hn']
      simp only [Option.toList_some, List.flatten_append, List.flatten_cons, List.flatten_nil,
        List.append_nil, List.length_append, List.range_add, List.map_append, ih (by omega),
        List.append_cancel_left_eq]
      apply List.ext_getElem
      · simp
      · intro k h1 h2
        have := hval n hn' k (by rw [List.getD_eq_getElem _ _ hn']; exact h2)
        simp only [List.getElem_map, List.getElem_range]
        rw [← position_eq_before, this]
        simp [hn']
  simpa using key data.length (le_refl _)

theorem exists_list_of_length (n : ℕ) : ∃ l : List UInt8, l.length = n :=
  ⟨List.replicate n 0, List.length_replicate ..⟩

/-- Pieces of `2 ^ 31` bytes in total make the computation of the displacements overflow. -/
theorem C61_violated : ¬ ∀ pieces : List (List UInt8),
    writeConcatenatedFileRootOnly pieces = .ok pieces.flatten := by
  intro h
  obtain ⟨l, hl⟩ := exists_list_of_length (2 ^ 31)
  have := h [l]
  unfold writeConcatenatedFileRootOnly at this
  simp only [List.map_cons, List.map_nil, List.sum_cons, List.sum_nil, hl] at this
  rw [if_pos (by decide)] at this
  exact absurd this (by simp)

end Verif
