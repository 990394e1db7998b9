import Verif.Model.GeneTask
import Mathlib.Tactic.Ring
import Mathlib.Algebra.Ring.Int.Defs
import Mathlib.Data.List.Basic

/-! # Lemmas about the exchange of data with GENE -/

namespace Verif.GeneTask

/-- The point lies in an array of shape `s`. -/
def Inside (s q : Vec) : Prop := q.w < s.w ∧ q.v < s.v ∧ q.z < s.z ∧ q.y < s.y ∧ q.x < s.x

instance (s q : Vec) : Decidable (Inside s q) := by unfold Inside; infer_instance

theorem mem_points (s q : Vec) : q ∈ points s ↔ Inside s q := by
  unfold points Inside
  simp only [List.mem_flatMap, List.mem_range, List.mem_map]
  constructor
  · rintro ⟨m, hm, l, hl, k, hk, j, hj, i, hi, rfl⟩
    exact ⟨hm, hl, hk, hj, hi⟩
  · rintro ⟨hm, hl, hk, hj, hi⟩
    exact ⟨_, hm, _, hl, _, hk, _, hj, _, hi, rfl⟩

theorem forEach_ok {α β : Type} (f : α → Outcome β) (g : α → β) (l : List α)
    (h : ∀ a ∈ l, f a = .ok (g a)) : forEach f l = .ok (l.map g) := by
  induction l with
  | nil => rfl
  | cons a as ih =>
    unfold forEach
    rw [h a (by simp), ih fun b hb => h b (by simp [hb])]
    rfl

theorem forEach_stuck {α β : Type} (f : α → Outcome β) (l : List α) (hne : ∀ a ∈ l, f a ≠ .error)
    (a : α) (ha : a ∈ l) (hs : f a = .stuck) : forEach f l = .stuck := by
  induction l with
  | nil => simp at ha
  | cons b bs ih =>
    unfold forEach
    rcases hb : f b with x | - | -
    · have hab : a ≠ b := by rintro rfl; simp [hb] at hs
      have : a ∈ bs := by simpa [hab] using ha
      have := ih (fun c hc => hne c (by simp [hc])) this
      simp [Outcome.bind, this]
    · exact absurd hb (hne b (by simp))
    · rfl

theorem zip_range_map {α β : Type} (n : ℕ) (f : ℕ → α) (g : ℕ → β) :
    ((List.range n).map f).zip ((List.range n).map g) = (List.range n).map fun s => (f s, g s) := by
  rw [List.zip_map']

variable {K : Type}

theorem foldl_copy (src : Arr K) (l : List Vec) (a : Arr K) (q : Vec) :
    l.foldl (fun a q => Function.update a q (src q)) a q = if q ∈ l then src q else a q := by
  induction l generalizing a with
  | nil => simp
  | cons b bs ih =>
    rw [List.foldl_cons, ih]
    by_cases hq : q ∈ bs
    · simp [hq]
    · by_cases hb : q = b
      · subst hb; simp
      · simp [hq, hb]

theorem copyPoints_apply (s : Vec) (src dst : Arr K) (q : Vec) :
    copyPoints s src dst q = if Inside s q then src q else dst q := by
  unfold copyPoints
  rw [foldl_copy]
  simp only [mem_points]

theorem zeroAt_iff [Zero K] [DecidableEq K] (s : Vec) (i : ℕ) (a : Arr K) :
    zeroAt s i a = true ↔ i < s.x ∧ ∀ q, q.w < s.w → q.v < s.v → q.z < s.z → q.y < s.y → q.x = i → a q = 0 := by
  unfold zeroAt
  simp only [Bool.and_eq_true, decide_eq_true_eq, List.all_eq_true, mem_points, Inside]
  refine and_congr_right fun _ => ⟨fun h q h1 h2 h3 h4 h5 => ?_, fun h q hq => ?_⟩
  · have := h { q with x := 0 } ⟨h1, h2, h3, h4, by simp⟩
    subst h5
    exact this
  · exact h _ hq.1 hq.2.1 hq.2.2.1 hq.2.2.2.1 rfl

theorem importOne_ok [Zero K] [DecidableEq K] (c : Config K) (pr : Proc) (lcp dfg : Arr K)
    (hs : shapesAgree c pr = true) (hx : 0 < pr.dfg.x)
    (hz : ∀ q, Inside pr.dfg q → (pr.coords.x + 1 = pr.p.x ∧ q.x = pr.dfg.x - 1 ∨ pr.coords.x = 0 ∧ q.x = 0) →
      copyPoints pr.lcp lcp dfg q = 0) :
    importOne c pr lcp dfg = .ok (copyPoints pr.lcp lcp dfg) := by
  unfold importOne
  rw [if_neg (by simp [hs])]
  simp only
  rw [if_neg, if_neg]
  · rintro ⟨h0, h⟩
    rw [← Bool.not_eq_true, zeroAt_iff] at h
    exact h ⟨hx, fun q h1 h2 h3 h4 h5 => hz q ⟨h1, h2, h3, h4, by omega⟩ (Or.inr ⟨h0, h5⟩)⟩
  · rintro ⟨h0, h⟩
    rw [← Bool.not_eq_true, zeroAt_iff] at h
    exact h ⟨by omega, fun q h1 h2 h3 h4 h5 => hz q ⟨h1, h2, h3, h4, by omega⟩ (Or.inl ⟨h0, h5⟩)⟩

theorem importOne_ne_error [Zero K] [DecidableEq K] (c : Config K) (pr : Proc) (lcp dfg : Arr K) :
    importOne c pr lcp dfg ≠ .error := by
  unfold importOne
  split <;> [skip; (simp only; split <;> [skip; split])] <;> simp

/-- The loop of the kernel. -/
theorem loop_kernel [CommRing K] (c : Config K) (pr : Proc) (nkx nkxG : ℕ) (source : Option (Arr K)) (a : Arr K)
    (off : ℕ → ℕ → ℕ) (fac : ℕ → ℕ → K) (hz : source = none → 2 ≤ pr.dfg.z) (l : List Vec)
    (hl : ∀ q ∈ l, q.z = 0 ∧ (¬(c.isGlobal = false ∧ q.x = nkxG / 2) →
      getOffsetAndFactor c (q.y + 1) (if c.isGlobal then pr.lower.x + q.x else 0) = .ok (off q.y q.x, fac q.y q.x) ∧
        (q.x + off q.y q.x) % nkxG < nkx)) (s : Arr K)
    (hs : source = none → ∀ t : Vec, t.z ≠ pr.dfg.z - 1 → s t = a t) :
    loop (kernelStep c pr nkx nkxG source) l s = .ok fun t =>
      if t.z = pr.dfg.z - 1 ∧ { t with z := 0 } ∈ l ∧ ¬(c.isGlobal = false ∧ t.x = nkxG / 2) then
        (source.getD a) { t with z := 0, x := (t.x + off t.y t.x) % nkxG } * fac t.y t.x
      else s t := by
  induction l generalizing s with
  | nil => simp [loop]
  | cons q qs ih =>
    unfold loop
    have hq := hl q (by simp)
    by_cases hskip : c.isGlobal = false ∧ q.x = nkxG / 2
    · have : kernelStep c pr nkx nkxG source s q = .ok s := by
        unfold kernelStep; rw [if_pos hskip]
      rw [this]
      simp only [Outcome.bind]
      rw [ih (fun q' h' => hl q' (by simp [h'])) s hs]
      congr 1
      funext t
      by_cases h1 : { t with z := 0 } = q
      · have : t.x = q.x := by rw [← h1]
        rw [if_neg (by rw [this]; tauto), if_neg (by rw [this]; tauto)]
      · simp only [List.mem_cons, h1, false_or]
    · have hsrc : (source.getD s) { q with z := 0, x := (q.x + off q.y q.x) % nkxG } =
          (source.getD a) { q with z := 0, x := (q.x + off q.y q.x) % nkxG } := by
        cases source with
        | some b => rfl
        | none =>
          have := hz rfl
          exact hs rfl _ (by simp only; omega)
      have : kernelStep c pr nkx nkxG source s q = .ok (Function.update s { q with z := pr.dfg.z - 1 }
          ((source.getD a) { q with z := 0, x := (q.x + off q.y q.x) % nkxG } * fac q.y q.x)) := by
        unfold kernelStep
        rw [if_neg hskip, (hq.2 hskip).1]
        simp only [Outcome.bind]
        rw [if_pos (hq.2 hskip).2, hsrc]
      rw [this]
      simp only [Outcome.bind]
      rw [ih (fun q' h' => hl q' (by simp [h']))]
      · congr 1
        funext t
        by_cases hin : t.z = pr.dfg.z - 1 ∧ { t with z := 0 } ∈ qs ∧ ¬(c.isGlobal = false ∧ t.x = nkxG / 2)
        · rw [if_pos hin, if_pos ⟨hin.1, by simp [hin.2.1], hin.2.2⟩]
        · rw [if_neg hin]
          by_cases ht : t = { q with z := pr.dfg.z - 1 }
          · subst ht
            rw [Function.update_self, if_pos]
            refine ⟨rfl, ?_, hskip⟩
            rw [List.mem_cons]
            left
            ext <;> simp [hq.1]
          · rw [Function.update_of_ne ht, if_neg]
            rintro ⟨h1, h2, h3⟩
            rcases List.mem_cons.1 h2 with h | h
            · apply ht
              ext <;> simp [← h, h1]
            · exact hin ⟨h1, h, h3⟩
      · intro hn t ht
        rw [Function.update_of_ne (by rintro rfl; exact ht rfl)]
        exact hs hn t ht

/-- The number of points in x that the kernel treats. -/
def nkxOf (pr : Proc) : ℕ := if pr.coords.x + 1 = pr.p.x then pr.dfg.x - 1 else pr.dfg.x

/-- The number of points in y that the kernel treats. -/
def nkyOf (c : Config K) (pr : Proc) : ℕ :=
  if pr.coords.y + 1 = pr.p.y ∧ c.isLinear = false then pr.dfg.y - 1 else pr.dfg.y

/-- The number of points in x that the kernel goes around. -/
def nkxGlobalOf (c : Config K) (pr : Proc) : ℕ := if c.xBoundaries then pr.sizes.x else pr.sizes.x - 1

theorem kernel_ok [CommRing K] (c : Config K) (pr : Proc) (source : Option (Arr K)) (a : Arr K)
    (off : ℕ → ℕ → ℕ) (fac : ℕ → ℕ → K) (hz : source = none → 2 ≤ pr.dfg.z) (of0 : ℕ × K)
    (h0 : getOffsetAndFactor c 1 0 = .ok of0)
    (hle : nkxOf pr ≤ nkxGlobalOf c pr) (heven : nkxOf pr % 2 = 0)
    (h : ∀ y < nkyOf c pr, ∀ x < nkxOf pr, ¬(c.isGlobal = false ∧ x = nkxGlobalOf c pr / 2) →
      getOffsetAndFactor c (y + 1) (if c.isGlobal then pr.lower.x + x else 0) = .ok (off y x, fac y x) ∧
        (x + off y x) % nkxGlobalOf c pr < nkxOf pr) :
    kernel c pr source a = .ok fun t =>
      if t.z = pr.dfg.z - 1 ∧ Inside ⟨pr.dfg.w, pr.dfg.v, 1, nkyOf c pr, nkxOf pr⟩ { t with z := 0 } ∧
          ¬(c.isGlobal = false ∧ t.x = nkxGlobalOf c pr / 2) then
        (source.getD a) { t with z := 0, x := (t.x + off t.y t.x) % nkxGlobalOf c pr } * fac t.y t.x
      else a t := by
  unfold kernel
  rw [h0]
  simp only [Outcome.bind]
  change (if nkxGlobalOf c pr < nkxOf pr then _ else if nkxOf pr % 2 ≠ 0 then _ else
    loop (kernelStep c pr (nkxOf pr) (nkxGlobalOf c pr) source)
      (points ⟨pr.dfg.w, pr.dfg.v, 1, nkyOf c pr, nkxOf pr⟩) a) = _
  rw [if_neg (by omega), if_neg (by omega), loop_kernel c pr _ _ source a off fac hz]
  · simp only [mem_points]
  · intro q hq
    rw [mem_points] at hq
    have : q.z < 1 := hq.2.2.1
    exact ⟨by omega, h q.y hq.2.2.2.1 q.x hq.2.2.2.2⟩
  · intro _ _ _; rfl

theorem kernel_ne_error [CommRing K] (c : Config K) (pr : Proc) (source : Option (Arr K)) (a : Arr K) :
    kernel c pr source a ≠ .error := by
  have hg : ∀ l x, getOffsetAndFactor c l x ≠ .error := by
    intro l x
    unfold getOffsetAndFactor
    split
    · split <;> [split; skip] <;> simp
    · split <;> simp
  have hst : ∀ nkx nkxG b q, kernelStep c pr nkx nkxG source b q ≠ .error := by
    intro nkx nkxG b q
    unfold kernelStep
    split
    · simp
    · rcases h : getOffsetAndFactor c (q.y + 1) (if c.isGlobal then pr.lower.x + q.x else 0) with of | - | -
      · simp only [Outcome.bind]; split <;> simp
      · exact absurd h (hg _ _)
      · simp [Outcome.bind]
  have hl : ∀ nkx nkxG l b, loop (kernelStep c pr nkx nkxG source) l b ≠ .error := by
    intro nkx nkxG l
    induction l with
    | nil => intro b; simp [loop]
    | cons q qs ih =>
      intro b
      unfold loop
      rcases h : kernelStep c pr nkx nkxG source b q with b' | - | -
      · exact ih b'
      · exact absurd h (hst _ _ _ _)
      · simp [Outcome.bind]
  unfold kernel
  rcases h : getOffsetAndFactor c 1 0 with of | - | -
  · simp only [Outcome.bind]
    change (if nkxGlobalOf c pr < nkxOf pr then _ else if nkxOf pr % 2 ≠ 0 then _ else
      loop (kernelStep c pr (nkxOf pr) (nkxGlobalOf c pr) source)
        (points ⟨pr.dfg.w, pr.dfg.v, 1, nkyOf c pr, nkxOf pr⟩) a) ≠ _
    by_cases h1 : nkxGlobalOf c pr < nkxOf pr
    · rw [if_pos h1]; simp
    · by_cases h2 : nkxOf pr % 2 ≠ 0
      · rw [if_neg h1, if_pos h2]; simp
      · rw [if_neg h1, if_neg h2]; exact hl _ _ _ _
  · exact absurd h (hg _ _)
  · simp [Outcome.bind]

/-- `setDFG` on the process with coordinates `k` when every step succeeds. -/
theorem setDFGs_ok [CommRing K] [DecidableEq K] (c : Config K) (procs : Vec → Proc) (ns : ℕ)
    (lcps dfgs : Vec → ℕ → Arr K) (k : Vec) (hk : (procs k).coords = k) (imp : Vec → ℕ → Arr K) (r : ℕ → Arr K)
    (himp : ∀ j, j = k ∨ j = { k with z := 0 } → ∀ s < ns,
      importOne c (procs j) (lcps j s) (dfgs j s) = .ok (imp j s))
    (hlin : (procs k).p.z > 1 → ¬(c.isLinear = true ∧ ((procs k).p.x ≠ 1 ∨ (procs k).sizes.y ≠ 1)))
    (hr : ∀ s < ns,
      ((procs k).p.z ≤ 1 → kernel c (procs k) none (imp k s) = .ok (r s)) ∧
      ((procs k).p.z > 1 → k.z + 1 = (procs k).p.z →
        kernel c (procs k) (some (imp { k with z := 0 } s)) (imp k s) = .ok (r s)) ∧
      ((procs k).p.z > 1 → k.z + 1 ≠ (procs k).p.z → imp k s = r s)) :
    setDFGs c procs (fun j => (List.range ns).map (lcps j)) (fun j => (List.range ns).map (dfgs j)) k =
      .ok ((List.range ns).map r) := by
  have hall : ∀ j, j = k ∨ j = { k with z := 0 } →
      forEach (fun s : Arr K × Arr K => importOne c (procs j) s.1 s.2)
        (((List.range ns).map (lcps j)).zip ((List.range ns).map (dfgs j))) = .ok ((List.range ns).map (imp j)) := by
    intro j hj
    have hcomp : ∀ l : List ℕ, (∀ s ∈ l, s < ns) →
        forEach (fun s : Arr K × Arr K => importOne c (procs j) s.1 s.2) (l.map fun s => (lcps j s, dfgs j s)) =
          .ok (l.map (imp j)) := by
      intro l hl
      induction l with
      | nil => rfl
      | cons s l ih =>
        rw [List.map_cons]
        unfold forEach
        rw [himp j hj s (hl s (by simp)), ih fun t ht => hl t (by simp [ht])]
        rfl
    rw [zip_range_map]
    exact hcomp _ fun s hs => List.mem_range.1 hs
  have hmap : ∀ (f : Arr K × Arr K → Outcome (Arr K)) (g : ℕ → Arr K × Arr K) (l : List ℕ),
      (∀ s ∈ l, f (g s) = .ok (r s)) → forEach f (l.map g) = .ok (l.map r) := by
    intro f g l hl
    induction l with
    | nil => rfl
    | cons s l ih =>
      rw [List.map_cons]
      unfold forEach
      rw [hl s (by simp), ih fun t ht => hl t (by simp [ht])]
      rfl
  unfold setDFGs
  simp only
  by_cases hz : (procs k).p.z > 1
  · by_cases hlast : k.z + 1 = (procs k).p.z
    · rw [if_pos ⟨hz, by omega, hlast⟩, hall _ (Or.inr rfl)]
      simp only [Outcome.bind]
      unfold setDFG
      rw [if_pos hz, hall _ (Or.inl rfl)]
      simp only [Outcome.bind]
      rw [if_neg (hlin hz), hk, if_pos ⟨by omega, hlast⟩, zip_range_map]
      exact hmap _ _ _ fun s hs => (hr s (List.mem_range.1 hs)).2.1 hz hlast
    · rw [if_neg (by omega)]
      simp only [Outcome.bind]
      unfold setDFG
      rw [if_pos hz, hall _ (Or.inl rfl)]
      simp only [Outcome.bind]
      rw [if_neg (hlin hz), hk, if_neg (by omega)]
      congr 1
      exact List.map_congr_left fun s hs => (hr s (List.mem_range.1 hs)).2.2 hz hlast
  · rw [if_neg (by omega)]
    simp only [Outcome.bind]
    unfold setDFG
    rw [if_neg hz, zip_range_map]
    refine hmap _ _ _ fun s hs => ?_
    simp only
    rw [himp k (Or.inl rfl) s (List.mem_range.1 hs)]
    exact (hr s (List.mem_range.1 hs)).1 (by omega)

theorem forEach_inv {α β : Type} (f : α → Outcome β) (l : List α) (bs : List β) (h : forEach f l = .ok bs) :
    bs.length = l.length ∧ ∀ i (hi : i < l.length) (hb : i < bs.length), f l[i] = .ok bs[i] := by
  induction l generalizing bs with
  | nil =>
    simp only [forEach, Outcome.ok.injEq] at h
    subst h
    simp
  | cons a as ih =>
    unfold forEach at h
    rcases ha : f a with b | - | -
    · rw [ha] at h
      simp only [Outcome.bind] at h
      rcases hr : forEach f as with bs' | - | -
      · rw [hr] at h
        simp only [Outcome.ok.injEq] at h
        subst h
        obtain ⟨h1, h2⟩ := ih bs' hr
        refine ⟨by simp [h1], fun i hi hb => ?_⟩
        cases i with
        | zero => exact ha
        | succ i => exact h2 i (by simpa using hi) (by simpa using hb)
      · rw [hr] at h; simp at h
      · rw [hr] at h; simp at h
    · rw [ha] at h; simp [Outcome.bind] at h
    · rw [ha] at h; simp [Outcome.bind] at h

/-- Every step of a loop that ends well ended well. -/
theorem loop_inv (step : Arr K → Vec → Outcome (Arr K)) (l : List Vec) (a b : Arr K) (h : loop step l a = .ok b) :
    ∀ q ∈ l, ∃ s s', step s q = .ok s' := by
  induction l generalizing a with
  | nil => simp
  | cons q qs ih =>
    unfold loop at h
    rcases hs : step a q with a' | - | -
    · rw [hs] at h
      intro q' hq'
      rcases List.mem_cons.1 hq' with rfl | hq'
      · exact ⟨_, _, hs⟩
      · exact ih a' h q' hq'
    · rw [hs] at h; simp [Outcome.bind] at h
    · rw [hs] at h; simp [Outcome.bind] at h

theorem kernelStep_off [CommRing K] (c : Config K) (pr : Proc) (nkx nkxG : ℕ) (source : Option (Arr K))
    (a b : Arr K) (q : Vec) (h : kernelStep c pr nkx nkxG source a q = .ok b) (t : Vec)
    (ht : t.z ≠ pr.dfg.z - 1) : b t = a t := by
  unfold kernelStep at h
  split at h
  · simp only [Outcome.ok.injEq] at h; rw [h]
  · rcases hg : getOffsetAndFactor c (q.y + 1) (if c.isGlobal then pr.lower.x + q.x else 0) with of | - | -
    · rw [hg] at h
      simp only [Outcome.bind] at h
      split at h
      · simp only [Outcome.ok.injEq] at h
        rw [← h, Function.update_of_ne (by rintro rfl; exact ht rfl)]
      · simp at h
    · rw [hg] at h; simp [Outcome.bind] at h
    · rw [hg] at h; simp [Outcome.bind] at h

/-- The conditions under which the kernel ends well. -/
theorem kernel_inv [CommRing K] (c : Config K) (pr : Proc) (source : Option (Arr K)) (a b : Arr K)
    (h : kernel c pr source a = .ok b) :
    (∃ of0, getOffsetAndFactor c 1 0 = .ok of0) ∧ nkxOf pr ≤ nkxGlobalOf c pr ∧ nkxOf pr % 2 = 0 ∧
    loop (kernelStep c pr (nkxOf pr) (nkxGlobalOf c pr) source)
      (points ⟨pr.dfg.w, pr.dfg.v, 1, nkyOf c pr, nkxOf pr⟩) a = .ok b := by
  unfold kernel at h
  rcases hg : getOffsetAndFactor c 1 0 with of | - | -
  · rw [hg] at h
    simp only [Outcome.bind] at h
    change (if nkxGlobalOf c pr < nkxOf pr then _ else if nkxOf pr % 2 ≠ 0 then _ else
      loop (kernelStep c pr (nkxOf pr) (nkxGlobalOf c pr) source)
        (points ⟨pr.dfg.w, pr.dfg.v, 1, nkyOf c pr, nkxOf pr⟩) a) = _ at h
    by_cases h1 : nkxGlobalOf c pr < nkxOf pr
    · rw [if_pos h1] at h; simp at h
    · by_cases h2 : nkxOf pr % 2 ≠ 0
      · rw [if_neg h1, if_pos h2] at h; simp at h
      · rw [if_neg h1, if_neg h2] at h
        exact ⟨⟨of, rfl⟩, by omega, by omega, h⟩
  · rw [hg] at h; simp [Outcome.bind] at h
  · rw [hg] at h; simp [Outcome.bind] at h

theorem kernel_off [CommRing K] (c : Config K) (pr : Proc) (source : Option (Arr K)) (a b : Arr K)
    (h : kernel c pr source a = .ok b) (t : Vec) (ht : t.z ≠ pr.dfg.z - 1) : b t = a t := by
  replace h := (kernel_inv c pr source a b h).2.2.2
  generalize points ⟨pr.dfg.w, pr.dfg.v, 1, nkyOf c pr, nkxOf pr⟩ = l at h
  induction l generalizing a with
  | nil => simp only [loop, Outcome.ok.injEq] at h; rw [h]
  | cons q qs ih =>
    unfold loop at h
    rcases hs : kernelStep c pr (nkxOf pr) (nkxGlobalOf c pr) source a q with a' | - | -
    · rw [hs] at h
      rw [ih a' h]
      exact kernelStep_off c pr _ _ _ _ _ _ hs t ht
    · rw [hs] at h; simp [Outcome.bind] at h
    · rw [hs] at h; simp [Outcome.bind] at h

/-- The conditions under which the import ends well. -/
theorem importOne_inv [Zero K] [DecidableEq K] (c : Config K) (pr : Proc) (lcp dfg a : Arr K)
    (h : importOne c pr lcp dfg = .ok a) :
    shapesAgree c pr = true ∧ a = copyPoints pr.lcp lcp dfg ∧
    (pr.coords.x + 1 = pr.p.x → zeroAt pr.dfg (pr.dfg.x - 1) a = true) ∧
    (pr.coords.x = 0 → zeroAt pr.dfg 0 a = true) := by
  unfold importOne at h
  by_cases hs : shapesAgree c pr = false
  · rw [if_pos hs] at h; simp at h
  · rw [if_neg hs] at h
    simp only at h
    split at h
    · simp at h
    · rename_i h1
      split at h
      · simp at h
      · rename_i h2
        simp only [Outcome.ok.injEq] at h
        subst h
        refine ⟨by simpa using hs, rfl, fun hx => ?_, fun hx => ?_⟩
        · simpa [hx] using h1
        · simpa [hx] using h2

/-- What `setDFG` does to every species when it ends well. -/
theorem setDFG_inv [CommRing K] [DecidableEq K] (c : Config K) (pr : Proc) (received lcps dfgs as : List (Arr K))
    (ns : ℕ) (hl : lcps.length = ns) (hd : dfgs.length = ns)
    (hr : 1 < pr.p.z → pr.coords.z + 1 = pr.p.z → received.length = ns)
    (h : setDFG c pr received lcps dfgs = .ok as) :
    as.length = ns ∧ ∀ s (h1 : s < lcps.length) (h2 : s < dfgs.length) (h3 : s < as.length), ∃ a,
      importOne c pr lcps[s] dfgs[s] = .ok a ∧
      ((1 < pr.p.z ∧ pr.coords.z + 1 ≠ pr.p.z ∧ as[s] = a) ∨
        ((1 < pr.p.z → pr.coords.z + 1 = pr.p.z) ∧ ∃ source, kernel c pr source a = .ok as[s])) := by
  unfold setDFG at h
  by_cases hz : pr.p.z > 1
  · rw [if_pos hz] at h
    rcases hi : forEach (fun s : Arr K × Arr K => importOne c pr s.1 s.2) (lcps.zip dfgs) with is | - | -
    · rw [hi] at h
      simp only [Outcome.bind] at h
      obtain ⟨i1, i2⟩ := forEach_inv _ _ _ hi
      have i1' : is.length = ns := by rw [i1, List.length_zip, hl, hd, min_self]
      split at h
      · simp at h
      · by_cases hc : pr.coords.z ≠ 0 ∧ pr.coords.z + 1 = pr.p.z
        · rw [if_pos hc] at h
          obtain ⟨k1, k2⟩ := forEach_inv _ _ _ h
          have k1' : as.length = ns := by rw [k1, List.length_zip, hr hz hc.2, i1', min_self]
          refine ⟨k1', fun s h1 h2 h3 => ⟨is[s]'(by omega), ?_, Or.inr ⟨fun _ => hc.2, ?_⟩⟩⟩
          · have := i2 s (by rw [List.length_zip]; omega) (by omega)
            rwa [List.getElem_zip] at this
          · have := k2 s (by rw [List.length_zip]; have := hr hz hc.2; omega) h3
            rw [List.getElem_zip] at this
            exact ⟨_, this⟩
        · rw [if_neg hc] at h
          simp only [Outcome.ok.injEq] at h
          subst h
          refine ⟨i1', fun s h1 h2 h3 => ⟨is[s], ?_, Or.inl ⟨hz, by omega, rfl⟩⟩⟩
          have := i2 s (by rw [List.length_zip]; omega) (by omega)
          rwa [List.getElem_zip] at this
    · rw [hi] at h; simp [Outcome.bind] at h
    · rw [hi] at h; simp [Outcome.bind] at h
  · rw [if_neg hz] at h
    obtain ⟨i1, i2⟩ := forEach_inv _ _ _ h
    refine ⟨by rw [i1, List.length_zip, hl, hd, min_self], fun s h1 h2 h3 => ?_⟩
    have := i2 s (by rw [List.length_zip]; omega) h3
    rw [List.getElem_zip] at this
    simp only at this
    rcases hi : importOne c pr lcps[s] dfgs[s] with a | - | -
    · rw [hi] at this
      exact ⟨a, rfl, Or.inr ⟨fun h => absurd h hz, none, this⟩⟩
    · rw [hi] at this; simp [Outcome.bind] at this
    · rw [hi] at this; simp [Outcome.bind] at this

end Verif.GeneTask
