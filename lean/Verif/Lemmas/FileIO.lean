import Verif.Model.FileIO
import Mathlib.Data.List.GetD
import Mathlib.Data.List.Nodup
import Mathlib.Tactic.Ring
import Mathlib.Tactic.Linarith

/-! Lemmas about `Verif.Model.FileIO`. -/

namespace Verif

variable {α : Type}

theorem toInt32_of_lt {n : ℕ} (h : n < 2 ^ 31) : toInt32 n = n := by
  unfold toInt32
  have : n % 2 ^ 32 = n := Nat.mod_eq_of_lt (by omega)
  simp only [this, h, if_true]

/-! ### Positions -/

theorem position_succ (cs : List ℕ) (r : ℕ) :
    getPositionFromNumValues cs (r + 1) = getPositionFromNumValues cs r + cs.getD r 0 := by
  unfold getPositionFromNumValues
  induction cs generalizing r with
  | nil => simp
  | cons x xs ih =>
    cases r with
    | zero => simp
    | succ r => simp only [List.take_succ_cons, List.sum_cons, ih, List.getD_cons_succ]; omega

theorem position_mono (cs : List ℕ) {r s : ℕ} (h : r ≤ s) :
    getPositionFromNumValues cs r ≤ getPositionFromNumValues cs s := by
  induction h with
  | refl => exact Nat.le_refl _
  | step _ ih => exact le_trans ih (by rw [position_succ]; omega)

theorem position_length (cs : List ℕ) {r : ℕ} (h : cs.length ≤ r) :
    getPositionFromNumValues cs r = cs.sum := by
  unfold getPositionFromNumValues
  rw [List.take_of_length_le h]

theorem position_end_le (cs : List ℕ) (r : ℕ) :
    getPositionFromNumValues cs r + cs.getD r 0 ≤ cs.sum := by
  rw [← position_succ]
  rcases Nat.lt_or_ge r cs.length with h | h
  · rw [← position_length cs (le_refl _)]
    exact position_mono cs h
  · rw [position_length cs (by omega)]

theorem position_disjoint (cs : List ℕ) {r s : ℕ} (h : r < s) :
    getPositionFromNumValues cs r + cs.getD r 0 ≤ getPositionFromNumValues cs s := by
  rw [← position_succ]
  exact position_mono cs h

theorem position_cover (cs : List ℕ) (i : ℕ) (h : i < cs.sum) :
    ∃ r < cs.length, getPositionFromNumValues cs r ≤ i ∧
      i < getPositionFromNumValues cs r + cs.getD r 0 := by
  by_contra hcon
  have key : ∀ r, r ≤ cs.length → getPositionFromNumValues cs r ≤ i := by
    intro r
    induction r with
    | zero => intro _; simp [getPositionFromNumValues]
    | succ r ih =>
      intro hr
      by_contra hlt
      exact hcon ⟨r, by omega, ih (by omega), by rw [← position_succ]; omega⟩
  have := key cs.length (le_refl _)
  rw [position_length cs (le_refl _)] at this
  omega

/-! ### Writing -/

theorem writeAt_len (c : Codec α) (f : DiskFile) (pos : ℕ) (v : List α) (T : ℕ)
    (hf : f.len ≤ T * c.size) (hp : pos + v.length ≤ T) :
    (f.writeAt c pos v).len ≤ T * c.size ∧
      (0 < v.length → (pos + v.length) * c.size ≤ (f.writeAt c pos v).len) ∧
      f.len ≤ (f.writeAt c pos v).len := by
  unfold DiskFile.writeAt
  have hm : (pos + v.length) * c.size ≤ T * c.size := Nat.mul_le_mul_right _ hp
  have he : (pos + v.length) * c.size = pos * c.size + v.length * c.size := Nat.add_mul _ _ _
  split
  · exact ⟨hf, fun h => by omega, le_refl _⟩
  · simp only
    exact ⟨by omega, fun _ => by omega, by omega⟩

theorem writeAt_byte_self (c : Codec α) (f : DiskFile) (pos : ℕ) (v : List α) {k j : ℕ}
    (hk : k < v.length) (hj : j < c.size) :
    (f.writeAt c pos v).byte ((pos + k) * c.size + j) = c.enc v[k] j := by
  unfold DiskFile.writeAt
  have he : (pos + k) * c.size + j = pos * c.size + (k * c.size + j) := by ring
  have hlt : k * c.size + j < v.length * c.size := by
    have h1 : (k + 1) * c.size ≤ v.length * c.size := Nat.mul_le_mul_right _ hk
    have h2 : (k + 1) * c.size = k * c.size + c.size := by ring
    omega
  rw [if_neg (by omega)]
  simp only [he]
  rw [if_pos (by omega), Nat.add_sub_cancel_left]
  have hdiv : (k * c.size + j) / c.size = k := by
    rw [Nat.mul_comm, Nat.mul_add_div c.size_pos, Nat.div_eq_of_lt hj, Nat.add_zero]
  have hmod : (k * c.size + j) % c.size = j := by
    rw [Nat.mul_comm, Nat.mul_add_mod, Nat.mod_eq_of_lt hj]
  rw [hdiv, hmod, List.getElem?_eq_getElem hk]
  rfl

theorem writeAt_byte_other (c : Codec α) (f : DiskFile) (pos : ℕ) (v : List α) {q j : ℕ}
    (hq : q < pos ∨ pos + v.length ≤ q) (hj : j < c.size) (hf : q * c.size + j < f.len) :
    (f.writeAt c pos v).byte (q * c.size + j) = f.byte (q * c.size + j) := by
  unfold DiskFile.writeAt
  split
  · rfl
  · simp only
    rw [if_neg ?_, if_pos hf]
    rintro ⟨h1, h2⟩
    rcases hq with h | h
    · have h3 : (q + 1) * c.size ≤ pos * c.size := Nat.mul_le_mul_right _ h
      have h4 : (q + 1) * c.size = q * c.size + c.size := by ring
      omega
    · have h3 : (pos + v.length) * c.size ≤ q * c.size := Nat.mul_le_mul_right _ h
      have h4 : (pos + v.length) * c.size = pos * c.size + v.length * c.size := by ring
      omega

theorem getD_map_length (data : List (List α)) (r : ℕ) :
    (data.map List.length).getD r 0 = (data.getD r []).length := by
  simp only [List.getD_eq_getElem?_getD, List.getElem?_map]
  cases data[r]? <;> rfl

theorem writeValues_eq (c : Codec α) (f : DiskFile) (v : List α) (pos : ℕ) (h : v.length < 2 ^ 31) :
    writeValuesToFileAtPosition c f v pos = f.writeAt c pos v := by
  unfold writeValuesToFileAtPosition
  rw [toInt32_of_lt h]
  simp

/-- What is known after the processes in `ws` have written their values. -/
structure Written (c : Codec α) (data : List (List α)) (ws : List ℕ) (f : DiskFile) : Prop where
  len_le : f.len ≤ (data.map List.length).sum * c.size
  le_len : ∀ r ∈ ws, 0 < (data.getD r []).length →
    (getPositionFromNumValues (data.map List.length) r + (data.getD r []).length) * c.size ≤ f.len
  byte : ∀ r ∈ ws, ∀ k, ∀ hk : k < (data.getD r []).length, ∀ j < c.size,
    f.byte ((getPositionFromNumValues (data.map List.length) r + k) * c.size + j) =
      c.enc (data.getD r [])[k] j

theorem written_foldl (c : Codec α) (data : List (List α))
    (hsize : ∀ d ∈ data, d.length < 2 ^ 31) (todo : List ℕ) :
    ∀ (ws : List ℕ) (f : DiskFile), Written c data ws f → (∀ r ∈ todo, r ∉ ws) → todo.Nodup →
      Written c data (todo.reverse ++ ws) (todo.foldl
        (fun f r => writeValuesToFileAtPosition c f (data.getD r [])
          (getPositionFromNumValues (data.map List.length) r)) f) := by
  induction todo with
  | nil => intro ws f h _ _; simpa using h
  | cons r rest ih =>
    intro ws f h hnot hnd
    rw [List.nodup_cons] at hnd
    have hlen : (data.getD r []).length < 2 ^ 31 := by
      rcases Nat.lt_or_ge r data.length with hr | hr
      · rw [List.getD_eq_getElem _ _ hr]; exact hsize _ (List.getElem_mem hr)
      · rw [List.getD_eq_default _ _ hr]; simp
    have hend := position_end_le (data.map List.length) r
    rw [getD_map_length] at hend
    have hstep : Written c data (r :: ws) (writeValuesToFileAtPosition c f (data.getD r [])
        (getPositionFromNumValues (data.map List.length) r)) := by
      rw [writeValues_eq c f _ _ hlen]
      obtain ⟨hl1, hl2, hl3⟩ := writeAt_len c f
        (getPositionFromNumValues (data.map List.length) r) (data.getD r []) _ h.len_le hend
      refine ⟨hl1, ?_, ?_⟩
      · intro s hs hpos
        rcases List.mem_cons.1 hs with rfl | hs
        · exact hl2 hpos
        · exact le_trans (h.le_len s hs hpos) hl3
      · intro s hs k hk j hj
        rcases List.mem_cons.1 hs with rfl | hs
        · exact writeAt_byte_self c f _ _ hk hj
        · have hne : s ≠ r := fun e => hnot r (List.mem_cons_self ..) (e ▸ hs)
          rw [writeAt_byte_other c f _ _ ?_ hj ?_]
          · exact h.byte s hs k hk j hj
          · rcases Nat.lt_or_gt_of_ne hne with hlt | hlt
            · left
              have := position_disjoint (data.map List.length) hlt
              rw [getD_map_length] at this
              omega
            · right
              have := position_disjoint (data.map List.length) hlt
              rw [getD_map_length] at this
              omega
          · have h1 := h.le_len s hs (by omega)
            have h2 : (getPositionFromNumValues (data.map List.length) s + k + 1) * c.size ≤
                (getPositionFromNumValues (data.map List.length) s + (data.getD s []).length) *
                  c.size := Nat.mul_le_mul_right _ (by omega)
            have h3 : (getPositionFromNumValues (data.map List.length) s + k + 1) * c.size =
                (getPositionFromNumValues (data.map List.length) s + k) * c.size + c.size := by ring
            omega
    have := ih (r :: ws) _ hstep (by
      intro s hs hmem
      rcases List.mem_cons.1 hmem with rfl | hmem
      · exact hnd.1 hs
      · exact hnot s (List.mem_cons_of_mem _ hs) hmem) hnd.2
    simpa using this

/-- The file after all processes have written. -/
theorem written_all (c : Codec α) (prev : Option DiskFile) (replace : Bool) (order : List ℕ)
    (data : List (List α)) (horder : order.Perm (List.range data.length))
    (hsize : ∀ d ∈ data, d.length < 2 ^ 31)
    (hprev : replace = true ∨ ∀ f, prev = some f → f.len ≤ (data.map List.length).sum * c.size) :
    (writeValuesConsecutive c prev replace order data).len =
        (data.map List.length).sum * c.size ∧
      ∀ r < data.length, ∀ k, ∀ hk : k < (data.getD r []).length,
        (writeValuesConsecutive c prev replace order data).value c
          (getPositionFromNumValues (data.map List.length) r + k) = (data.getD r [])[k] := by
  have h0 : Written c data [] (getFileToWrite prev replace) := by
    refine ⟨?_, by simp, by simp⟩
    unfold getFileToWrite
    cases prev with
    | none => simp [DiskFile.empty]
    | some f =>
      rcases hprev with h | h
      · simp [h, DiskFile.empty]
      · simp only
        split
        · simp [DiskFile.empty]
        · exact h f rfl
  have h := written_foldl c data hsize order [] _ h0 (by simp)
    (horder.nodup_iff.2 List.nodup_range)
  have hmem : ∀ r < data.length, r ∈ order.reverse ++ [] := by
    intro r hr
    simp [horder.mem_iff, hr]
  refine ⟨le_antisymm h.len_le ?_, ?_⟩
  · rcases Nat.eq_zero_or_pos (data.map List.length).sum with hz | hp
    · rw [hz]; simp
    · obtain ⟨r, hr, h1, h2⟩ := position_cover (data.map List.length)
        ((data.map List.length).sum - 1) (by omega)
      rw [getD_map_length] at h2
      refine le_trans (Nat.mul_le_mul_right _ ?_)
        (h.le_len r (hmem r (by simpa using hr)) (by omega))
      omega
  · intro r hr k hk
    exact c.dec_enc _ _ fun j hj => h.byte r (hmem r hr) k hk j hj

theorem read_complete (c : Codec α) (f : DiskFile) (n pos T : ℕ) (hlen : f.len = T * c.size)
    (hn : n < 2 ^ 31) (hp : pos + n ≤ T) :
    readValuesFromFileAtPosition c f n pos = (List.range n).map fun i => f.value c (pos + i) := by
  unfold readValuesFromFileAtPosition
  rw [toInt32_of_lt hn, hlen, Nat.mul_div_cancel _ c.size_pos]
  simp only [Int.toNat_natCast]
  rw [Nat.min_eq_left (by omega)]

/-! ### The loop of read and reduce -/

/-- The values after combining everything from `rc` on. -/
def reduced (g : ℕ → α → α) (rc : ℕ) (vals : List α) : List α :=
  vals.mapIdx fun i x => if rc ≤ i then g i x else x

theorem reduced_all (g : ℕ → α → α) (vals : List α) : reduced g 0 vals = vals.mapIdx g := by
  unfold reduced
  simp

theorem reduced_end (g : ℕ → α → α) (rc : ℕ) (vals : List α) (h : vals.length ≤ rc) :
    reduced g rc vals = vals := by
  unfold reduced
  apply List.ext_getElem (by simp)
  intro i h1 h2
  simp only [List.getElem_mapIdx]
  rw [if_neg (by simp at h1; omega)]

/-- One pass over `k` values. -/
theorem reduced_step (g : ℕ → α → α) (rc k : ℕ) (vals new : List α)
    (hlen : new.length = (vals.drop rc).length)
    (hnew : ∀ i, ∀ h : i < new.length, ∀ h' : rc + i < vals.length,
      new[i] = if i < k then g (rc + i) vals[rc + i] else vals[rc + i])
    (hrc : rc ≤ vals.length) :
    reduced g (rc + k) (vals.take rc ++ new) = reduced g rc vals := by
  unfold reduced
  have hd : (vals.drop rc).length = vals.length - rc := List.length_drop ..
  apply List.ext_getElem
  · simp; omega
  · intro i h1 h2
    simp only [List.length_mapIdx, List.length_append, List.length_take] at h1 h2
    simp only [List.getElem_mapIdx]
    rcases Nat.lt_or_ge i rc with hi | hi
    · rw [if_neg (by omega), if_neg (by omega), List.getElem_append_left (by simp; omega),
        List.getElem_take]
    · rw [if_pos hi, List.getElem_append_right (by simp; omega)]
      simp only [List.length_take, Nat.min_eq_left hrc]
      have hi' : rc + (i - rc) = i := by omega
      have := hnew (i - rc) (by omega) (by omega)
      simp only [hi'] at this
      rw [this]
      rcases Nat.lt_or_ge i (rc + k) with h3 | h3
      · rw [if_neg (by omega), if_pos (by omega)]
      · rw [if_pos (by omega), if_neg (by omega)]

theorem div_ceil_step {b m : ℕ} (hb : 0 < b) (hm : b ≤ m) :
    (m + b - 1) / b = (m - b + b - 1) / b + 1 := by
  have : m + b - 1 = (m - b + b - 1) + b := by omega
  rw [this, Nat.add_div_right _ hb]

/-- What combining must do with complete buffers: every value is combined with the values read. -/
def CombOk (c : Codec α) (files : List DiskFile) (comb : List (List α) → List α → Outcome (List α))
    (g : ℕ → α → α) : Prop :=
  ∀ (p k : ℕ) (vals : List α), k ≤ vals.length →
    ∃ new, comb (files.map fun f => (List.range k).map fun i => f.value c (p + i)) vals = .ok new ∧
      new.length = vals.length ∧
      ∀ i, ∀ h : i < new.length, ∀ h' : i < vals.length,
        new[i] = if i < k then g (p + i) vals[i] else vals[i]

theorem resizeBuffer_length (z : α) (buf : List α) (n : ℕ) : (resizeBuffer z buf n).length = n := by
  simp [resizeBuffer]; omega

theorem pass_eq (c : Codec α) (z : α) (files : List DiskFile) (hf : files ≠ []) (n b pos rc T : ℕ)
    (bufs : List (List α)) (hbufs : bufs.length = files.length)
    (hbl : ∀ buf ∈ bufs, buf.length = b) (hT : ∀ f ∈ files, f.len = T * c.size)
    (hb : b < 2 ^ 31) (hp : pos + (n - rc) ≤ T) :
    readReducePass c z files n b pos rc bufs =
      (min b (n - rc), files.map fun f => (List.range (min b (n - rc))).map fun i => f.value c (pos + i),
        min b (n - rc)) := by
  have hb' : (if n - rc < b then n - rc else b) = min b (n - rc) := by split <;> omega
  have hlen : ∀ buf ∈ (if n - rc < b then bufs.map fun buf => resizeBuffer z buf (min b (n - rc))
      else bufs), buf.length = min b (n - rc) := by
    intro buf hbuf
    split at hbuf
    · obtain ⟨x, -, rfl⟩ := List.mem_map.1 hbuf
      exact resizeBuffer_length ..
    · rw [hbl _ hbuf]; omega
  have hlen' : (if n - rc < b then bufs.map fun buf => resizeBuffer z buf (min b (n - rc))
      else bufs).length = files.length := by
    split <;> simp [hbufs]
  unfold readReducePass
  simp only [hb']
  generalize hB : (if n - rc < b then bufs.map fun buf => resizeBuffer z buf (min b (n - rc))
      else bufs) = B at hlen hlen'
  have hz : List.zipWith (fun f buf => readIntoBuffer c f (min b (n - rc)) pos buf) files B =
      files.map fun f => ((List.range (min b (n - rc))).map fun i => f.value c (pos + i),
        min b (n - rc)) := by
    apply List.ext_getElem
    · simp [hlen']
    · intro i h1 h2
      simp only [List.length_zipWith, List.length_map] at h1 h2
      simp only [List.getElem_zipWith, List.getElem_map]
      unfold readIntoBuffer
      simp only
      rw [read_complete c files[i] _ pos T (hT _ (List.getElem_mem _)) (by omega) (by omega)]
      have := hlen B[i] (List.getElem_mem _)
      simp [this]
  rw [hz]
  simp only [List.map_map, Function.comp_def, Prod.mk.injEq, true_and]
  rw [List.getLast?_map, List.getLast?_eq_some_getLast hf]
  rfl

theorem readReduceLoop_eq (c : Codec α) (z : α) (files : List DiskFile) (hf : files ≠ [])
    (comb : List (List α) → List α → Outcome (List α)) (g : ℕ → α → α)
    (hcomb : CombOk c files comb g) (T pos0 : ℕ) (hT : ∀ f ∈ files, f.len = T * c.size) (n : ℕ)
    (hp : pos0 + n ≤ T) :
    ∀ (m rc b : ℕ) (bufs : List (List α)) (vals : List α), n - rc = m → rc ≤ n → 0 < b →
      b < 2 ^ 31 → bufs.length = files.length → (∀ buf ∈ bufs, buf.length = b) → vals.length = n →
      readReduceLoop c z files comb n b (pos0 + rc) rc bufs vals =
        .ok (reduced (fun i => g (pos0 + i)) rc vals, (n - rc + b - 1) / b) := by
  intro m
  induction m using Nat.strong_induction_on with
  | _ m ih =>
    intro rc b bufs vals hm hrc hb0 hb hbufs hbl hv
    unfold readReduceLoop
    rcases Nat.lt_or_ge rc n with hlt | hge
    · rw [dif_pos hlt, pass_eq c z files hf n b (pos0 + rc) rc T bufs hbufs hbl hT hb (by omega)]
      simp only
      have hk : 0 < min b (n - rc) := by omega
      rw [dif_neg (by omega)]
      have hkle : min b (n - rc) ≤ (vals.drop rc).length := by simp; omega
      obtain ⟨new, hc, hnl, hnew⟩ := hcomb (pos0 + rc) (min b (n - rc)) (vals.drop rc) hkle
      rw [hc]
      simp only [Outcome.bind]
      rw [Nat.add_assoc, ih (n - (rc + min b (n - rc))) (by omega) (rc + min b (n - rc)) _ _ _ rfl
        (by omega) hk (by omega) (by simp) (by simp) (by simp [hnl]; omega)]
      simp only [Outcome.ok.injEq, Prod.mk.injEq]
      constructor
      · apply reduced_step _ _ _ _ _ hnl _ (by omega)
        intro i h h'
        have := hnew i h (by simp; omega)
        simpa [Nat.add_assoc] using this
      · rcases Nat.lt_or_ge (n - rc) b with h1 | h1
        · rw [Nat.min_eq_right (by omega)]
          have e1 : n - (rc + (n - rc)) + (n - rc) - 1 = n - rc - 1 := by omega
          rw [e1, Nat.div_eq_of_lt (by omega)]
          have e2 : n - rc + b - 1 = (n - rc - 1) + b := by omega
          rw [e2, Nat.add_div_right _ hb0, Nat.div_eq_of_lt (by omega)]
        · rw [Nat.min_eq_left h1, div_ceil_step hb0 h1]
          congr 2
          omega
    · rw [dif_neg (by omega), reduced_end _ _ _ (by omega)]
      have : (n - rc + b - 1) / b = 0 := Nat.div_eq_of_lt (by omega)
      rw [this]

theorem combOk_transform1 (c : Codec α) (f : DiskFile) (op : α → α → α) :
    CombOk c [f] (transform1 op) fun p x => op (f.value c p) x := by
  intro p k vals hk
  simp only [List.map_cons, List.map_nil, transform1]
  rw [if_neg (by simp; omega)]
  refine ⟨_, rfl, by simp; omega, ?_⟩
  intro i h h'
  simp only [List.length_map, List.length_range]
  split
  · next hi =>
    rw [List.getElem_append_left (by simp; omega)]
    simp
  · next hi =>
    rw [List.getElem_append_right (by simp; omega)]
    simp only [List.length_zipWith, List.length_map, List.length_range, Nat.min_eq_left hk,
      List.getElem_drop]
    congr 1
    omega

theorem combOk_transform2 (c : Codec α) (f0 f1 : DiskFile) (op : α → α → α → α) :
    CombOk c [f0, f1] (transform2 op) fun p x => op (f0.value c p) x (f1.value c p) := by
  intro p k vals hk
  simp only [List.map_cons, List.map_nil, transform2]
  rw [if_neg (by simp; omega)]
  refine ⟨_, rfl, by simp; omega, ?_⟩
  intro i h h'
  simp only [List.length_map, List.length_range]
  split
  · next hi =>
    rw [List.getElem_append_left (by simp; omega)]
    simp
  · next hi =>
    rw [List.getElem_append_right (by simp; omega)]
    simp only [List.length_zipWith, List.length_zip, List.length_map, List.length_range,
      List.getElem_drop]
    congr 1
    omega

theorem collect_ok (l : List (Outcome (List α × ℕ))) (xs : List (List α × ℕ))
    (h : l = xs.map .ok) : readReduceAll.collect l = .ok xs := by
  subst h
  induction xs with
  | nil => rfl
  | cons x xs ih => simp [readReduceAll.collect, Outcome.bind, ih]

/-! ### Concatenation -/

theorem gatherv_go (pieces : List (List UInt8)) :
    ∀ (done rest : List UInt8), rest.length = (pieces.map List.length).sum →
      gathervChars.go (((List.range pieces.length).map fun r =>
        done.length + ((pieces.map List.length).take r).sum).zip pieces) (done ++ rest) =
        .ok (done ++ pieces.flatten) := by
  induction pieces with
  | nil => intro done rest h; simp at h; subst h; simp [gathervChars.go]
  | cons p ps ih =>
    intro done rest h
    simp only [List.map_cons, List.sum_cons] at h
    simp only [List.length_cons, List.range_succ_eq_map, List.map_cons, List.map_map,
      List.zip_cons_cons, List.take_zero, List.sum_nil, Nat.add_zero, gathervChars.go]
    rw [if_neg (by simp; omega)]
    have h1 : List.take done.length (done ++ rest) = done := by simp
    have h2 : List.drop (done.length + p.length) (done ++ rest) = rest.drop p.length := by
      rw [List.drop_append]; simp
    rw [h1, h2]
    have := ih (done ++ p) (rest.drop p.length) (by simp; omega)
    simp only [List.length_append] at this
    simp only [Function.comp_def, List.take_succ_cons, List.sum_cons, List.flatten_cons]
    simp only [Nat.add_assoc, List.append_assoc] at this ⊢
    exact this

end Verif
