import Verif.Model.FaultLayer
import Mathlib.Data.Int.Init
import Mathlib.Data.List.Perm.Basic
import Mathlib.Algebra.BigOperators.Group.List.Basic
import Mathlib.Tactic.Linarith
import Mathlib.Tactic.Ring

/-! Lemmas about `Model/FaultLayer`. -/

namespace Verif.FaultLayer

/-! ### The tree -/

lemma convertId_range {x size : ℤ} (h1 : -size < x) (h2 : x < 2 * size) :
    0 ≤ convertId x size ∧ convertId x size < size := by
  unfold convertId
  split_ifs <;> omega

lemma ediv_eq_iff {m a : ℤ} {k : ℕ} (hk : 1 ≤ k) :
    m / (k : ℤ) = a ↔ ∃ i : ℕ, i < k ∧ a * k + i = m := by
  constructor
  · rintro rfl
    have h0 : (0 : ℤ) ≤ m % k := Int.emod_nonneg _ (by omega)
    have h1 : m % (k : ℤ) < k := Int.emod_lt_of_pos _ (by omega)
    refine ⟨(m % k).toNat, by omega, ?_⟩
    have := Int.mul_ediv_add_emod m k
    rw [mul_comm] at this
    omega
  · rintro ⟨i, hi, rfl⟩
    rw [show a * (k : ℤ) + i = i + a * k by ring, Int.add_mul_ediv_right _ _ (by omega),
      Int.ediv_eq_zero_of_lt (by omega) (by omega)]
    omega

lemma mem_successors {k : ℕ} (hk : 1 ≤ k) {root size a s : ℤ} (hr0 : 0 ≤ root) (hr : root < size)
    (ha0 : 0 ≤ a) (ha : a < size) :
    s ∈ successors k root a size ↔
      0 ≤ s ∧ s < size ∧ (convertId (s - root) size - 1) / (k : ℤ) = convertId (a - root) size := by
  have hna : 0 ≤ convertId (a - root) size := (convertId_range (by omega) (by omega)).1
  unfold successors
  generalize convertId (a - root) size = x at hna
  rw [List.mem_filterMap]
  constructor
  · rintro ⟨i, hi, h⟩
    have hi' := List.mem_range.1 hi
    have hpos : (0 : ℤ) ≤ x * k := by positivity
    simp only at h
    split_ifs at h with h1
    have hs : convertId (x * k + i + 1 + root) size = s := by simpa using h
    have hx := convertId_range (x := x * k + i + 1 + root) (size := size) (by omega) (by omega)
    refine ⟨by omega, by omega, ?_⟩
    rw [ediv_eq_iff hk]
    refine ⟨i, hi', ?_⟩
    generalize x * (k : ℤ) = y at *
    have : convertId (s - root) size = y + i + 1 := by
      rw [← hs]
      unfold convertId
      split_ifs <;> omega
    omega
  · rintro ⟨h0, h1, h2⟩
    rw [ediv_eq_iff hk] at h2
    obtain ⟨i, hi, h3⟩ := h2
    refine ⟨i, List.mem_range.2 hi, ?_⟩
    have hpos : (0 : ℤ) ≤ x * k := by positivity
    have hn := convertId_range (x := s - root) (size := size) (by omega) (by omega)
    simp only
    generalize x * (k : ℤ) = y at *
    rw [if_pos (by omega), show y + i + 1 = convertId (s - root) size by omega]
    congr 1
    unfold convertId
    split_ifs <;> omega

lemma successors_nodup {k : ℕ} {root size a : ℤ} (hr0 : 0 ≤ root) (hr : root < size)
    (ha0 : 0 ≤ a) (ha : a < size) : (successors k root a size).Nodup := by
  have hna : 0 ≤ convertId (a - root) size := (convertId_range (by omega) (by omega)).1
  unfold successors
  refine List.Nodup.filterMap ?_ List.nodup_range
  intro i j b hi hj
  have hpos : (0 : ℤ) ≤ convertId (a - root) size * k := by positivity
  generalize convertId (a - root) size * (k : ℤ) = y at *
  simp only [Option.mem_def] at hi hj
  split_ifs at hi hj with h1 h2
  · have e : convertId (y + i + 1 + root) size = convertId (y + j + 1 + root) size := by
      rw [Option.some.inj hi, Option.some.inj hj]
    unfold convertId at e
    split_ifs at e <;> omega

lemma predecessor_eq {k : ℕ} (hk : 1 ≤ k) {root size s : ℤ} (hn : 1 ≤ convertId (s - root) size) :
    predecessor k root s size = (convertId (s - root) size - 1) / (k : ℤ) + root := by
  unfold predecessor
  simp only
  generalize convertId (s - root) size = m at *
  have h0 : 0 ≤ m - 1 := by omega
  rw [Int.tmod_eq_emod_of_nonneg h0]
  have h1 : (m - 1) - (m - 1) % (k : ℤ) = (m - 1) / k * k := by
    have := Int.mul_ediv_add_emod (m - 1) k
    rw [mul_comm] at this
    omega
  rw [h1, Int.mul_tdiv_cancel _ (by omega)]

/-- With root 0 the parent of `x` is `(x - 1) / k`. -/
lemma convertId_zero {x size : ℤ} (h0 : 0 ≤ x) (h : x < size) : convertId (x - 0) size = x := by
  unfold convertId
  split_ifs <;> omega

lemma mem_succ0 {k : ℕ} (hk : 1 ≤ k) {size a s : ℤ} (ha0 : 0 ≤ a) (ha : a < size) :
    s ∈ successors k 0 a size ↔ 1 ≤ s ∧ s < size ∧ (s - 1) / (k : ℤ) = a := by
  rw [mem_successors hk le_rfl (by omega) ha0 ha, convertId_zero ha0 ha]
  constructor
  · rintro ⟨h0, h1, h2⟩
    rw [convertId_zero h0 h1] at h2
    refine ⟨?_, h1, h2⟩
    by_contra hc
    have hs : s = 0 := by omega
    subst hs
    have : ((0 : ℤ) - 1) / k < 0 := Int.ediv_neg_of_neg_of_pos (by omega) (by omega)
    omega
  · rintro ⟨h0, h1, h2⟩
    refine ⟨by omega, h1, ?_⟩
    rw [convertId_zero (by omega) h1]
    exact h2

lemma pred0 {k : ℕ} (hk : 1 ≤ k) {size s : ℤ} (h1 : 1 ≤ s) (h2 : s < size) :
    predecessor k 0 s size = (s - 1) / (k : ℤ) := by
  rw [predecessor_eq hk (by rw [convertId_zero (by omega) h2]; exact h1), convertId_zero (by omega) h2]
  omega

lemma parent_bounds {k : ℕ} (hk : 1 ≤ k) {s : ℤ} (h1 : 1 ≤ s) :
    0 ≤ (s - 1) / (k : ℤ) ∧ (s - 1) / (k : ℤ) < s := by
  constructor
  · exact Int.ediv_nonneg (by omega) (by omega)
  · have := Int.ediv_le_self (k : ℤ) (show 0 ≤ s - 1 by omega)
    omega

lemma reached0 {k : ℕ} (hk : 1 ≤ k) {size : ℤ} : ∀ (fuel : ℕ) (r : ℤ), 0 ≤ r → r < size → r ≤ fuel →
    reached k 0 size fuel r = true := by
  intro fuel
  induction fuel with
  | zero =>
    intro r h0 h1 h2
    have : r = 0 := by simpa using (by omega : r = 0)
    simp [reached, this]
  | succ fuel ih =>
    intro r h0 h1 h2
    by_cases hr : r = 0
    · simp [reached, hr]
    · have hb := parent_bounds hk (show 1 ≤ r by omega)
      have hp := pred0 hk (show 1 ≤ r by omega) h1
      rw [reached, hp, ih _ hb.1 (by omega) (by push_cast at h2; omega)]
      simp only [Bool.or_eq_true, decide_eq_true_eq, Bool.and_eq_true, and_true]
      right
      rw [mem_succ0 hk hb.1 (by omega)]
      exact ⟨by omega, h1, rfl⟩

/-! ### Descendants -/

/-- The processes below `r`. -/
def desc (k : ℕ) (size : ℤ) : ℕ → ℤ → List ℤ
  | 0, _ => []
  | fuel + 1, r => r :: (successors k 0 r size).flatMap (desc k size fuel)

/-- Repeated parents. -/
def up (k : ℕ) : ℕ → ℤ → ℤ
  | 0, x => x
  | m + 1, x => (up k m x - 1) / (k : ℤ)

lemma up_add (k : ℕ) (a b : ℕ) (x : ℤ) : up k (a + b) x = up k a (up k b x) := by
  induction a with
  | zero => simp [up]
  | succ a ih => rw [show a + 1 + b = (a + b) + 1 by omega]; simp only [up, ih]

lemma up_nonneg_step {k : ℕ} (hk : 1 ≤ k) {x : ℤ} (h : 0 ≤ (x - 1) / (k : ℤ)) : 1 ≤ x := by
  by_contra hc
  have : (x - 1) / (k : ℤ) < 0 := Int.ediv_neg_of_neg_of_pos (by omega) (by omega)
  omega

lemma up_le {k : ℕ} (hk : 1 ≤ k) : ∀ (m : ℕ) (x : ℤ), 0 ≤ up k m x → up k m x + m ≤ x := by
  intro m
  induction m with
  | zero => intro x _; simp [up]
  | succ m ih =>
    intro x h
    simp only [up] at h ⊢
    have h1 := up_nonneg_step hk h
    have h2 := parent_bounds hk h1
    have h3 := ih x (by omega)
    push_cast
    omega

lemma mem_desc {k : ℕ} (hk : 1 ≤ k) {size : ℤ} : ∀ (fuel : ℕ) (r x : ℤ), 0 ≤ r → r < size →
    (x ∈ desc k size fuel r ↔ x < size ∧ ∃ m < fuel, up k m x = r) := by
  intro fuel
  induction fuel with
  | zero => intro r x _ _; simp [desc]
  | succ fuel ih =>
    intro r x h0 h1
    rw [desc, List.mem_cons, List.mem_flatMap]
    constructor
    · rintro (rfl | ⟨s, hs, hx⟩)
      · exact ⟨h1, 0, by omega, rfl⟩
      · rw [mem_succ0 hk h0 h1] at hs
        obtain ⟨h2, m, h3, h4⟩ := (ih s x (by omega) hs.2.1).1 hx
        refine ⟨h2, m + 1, by omega, ?_⟩
        simp only [up, h4]
        exact hs.2.2
    · rintro ⟨h2, m, h3, h4⟩
      cases m with
      | zero => left; exact h4
      | succ m =>
        right
        simp only [up] at h4
        have h5 := up_nonneg_step (x := up k m x) hk (by omega)
        have h6 := up_le hk m x (by omega)
        refine ⟨up k m x, ?_, ?_⟩
        · rw [mem_succ0 hk h0 h1]
          exact ⟨h5, by omega, h4⟩
        · rw [ih _ _ (by omega) (by omega)]
          exact ⟨h2, m, by omega, rfl⟩

lemma desc_nodup {k : ℕ} (hk : 1 ≤ k) {size : ℤ} : ∀ (fuel : ℕ) (r : ℤ), 0 ≤ r → r < size →
    (desc k size fuel r).Nodup := by
  intro fuel
  induction fuel with
  | zero => intro r _ _; simp [desc]
  | succ fuel ih =>
    intro r h0 h1
    have hmem := fun s => mem_succ0 (size := size) (s := s) hk h0 h1
    rw [desc, List.nodup_cons, List.nodup_flatMap]
    refine ⟨?_, ?_, ?_⟩
    · intro hc
      obtain ⟨s, hs, hx⟩ := List.mem_flatMap.1 hc
      obtain ⟨h2, h3, h4⟩ := (hmem s).1 hs
      obtain ⟨_, m, _, h5⟩ := (mem_desc hk fuel s r (by omega) h3).1 hx
      have h6 := up_le hk m r (by omega)
      have h7 := parent_bounds hk h2
      omega
    · intro s hs
      obtain ⟨h2, h3, h4⟩ := (hmem s).1 hs
      exact ih s (by omega) h3
    · refine List.Pairwise.imp_of_mem ?_ (successors_nodup le_rfl (by omega) h0 h1)
      intro s t hs ht hst x hxs hxt
      obtain ⟨h2, h3, h4⟩ := (hmem s).1 hs
      obtain ⟨h2', h3', h4'⟩ := (hmem t).1 ht
      obtain ⟨_, m, _, h5⟩ := (mem_desc hk fuel s x (by omega) h3).1 hxs
      obtain ⟨_, m', _, h5'⟩ := (mem_desc hk fuel t x (by omega) h3').1 hxt
      have key : ∀ (a b : ℕ) (u v : ℤ), up k a x = u → up k b x = v → a ≤ b → 1 ≤ u → 1 ≤ v →
          (u - 1) / (k : ℤ) = r → (v - 1) / (k : ℤ) = r → u = v := by
        intro a b u v ha hb hab hu hv hu' hv'
        obtain ⟨c, rfl⟩ := Nat.exists_eq_add_of_le hab
        rw [show a + c = c + a by omega, up_add, ha] at hb
        cases c with
        | zero => simpa [up] using hb
        | succ c =>
          exfalso
          rw [up_add] at hb
          have e : up k 1 u = r := by simp only [up]; exact hu'
          rw [e] at hb
          have h8 := up_le hk c r (by omega)
          have h9 := parent_bounds hk hv
          omega
      rcases Nat.le_total m m' with h | h
      · exact hst (key m m' s t h5 h5' h h2 h2' h4 h4')
      · exact hst (key m' m t s h5' h5 h h2' h2 h4' h4).symm

lemma up_reaches {k : ℕ} (hk : 1 ≤ k) : ∀ (n : ℕ) (x : ℤ), 0 ≤ x → x ≤ n → ∃ m ≤ n, up k m x = 0 := by
  intro n
  induction n with
  | zero => intro x h0 h1; exact ⟨0, le_rfl, by simp [up]; omega⟩
  | succ n ih =>
    intro x h0 h1
    by_cases hx : x = 0
    · exact ⟨0, by omega, by simp [up, hx]⟩
    · have hb := parent_bounds hk (show 1 ≤ x by omega)
      obtain ⟨m, h2, h3⟩ := ih _ hb.1 (by push_cast at h1; omega)
      refine ⟨m + 1, by omega, ?_⟩
      rw [up_add]
      simpa [up] using h3

/-- The ranks. -/
def ranks (n : ℕ) : List ℤ := (List.range n).map fun i : ℕ => (i : ℤ)

lemma mem_ranks {n : ℕ} {x : ℤ} : x ∈ ranks n ↔ 0 ≤ x ∧ x < n := by
  unfold ranks
  rw [List.mem_map]
  constructor
  · rintro ⟨i, hi, rfl⟩
    have := List.mem_range.1 hi
    omega
  · rintro ⟨h0, h1⟩
    exact ⟨x.toNat, List.mem_range.2 (by omega), by omega⟩

lemma ranks_nodup (n : ℕ) : (ranks n).Nodup :=
  List.nodup_range.map fun a b h => by simpa using h

lemma desc_perm {k : ℕ} (hk : 1 ≤ k) {n : ℕ} (hn : 0 < n) : (desc k n n 0).Perm (ranks n) := by
  rw [List.perm_ext_iff_of_nodup (desc_nodup hk n 0 le_rfl (by omega)) (ranks_nodup n)]
  intro x
  rw [mem_desc hk n 0 x le_rfl (by omega), mem_ranks]
  constructor
  · rintro ⟨h1, m, h2, h3⟩
    have := up_le hk m x (by omega)
    omega
  · rintro ⟨h0, h1⟩
    obtain ⟨m, h2, h3⟩ := up_reaches hk (n - 1) x h0 (by omega)
    exact ⟨h1, m, by omega, h3⟩

/-! ### The reduction -/

lemma mapM_forall₂ {α β : Type} (f : α → Option β) (Q : α → β → Prop) :
    ∀ l : List α, (∀ a ∈ l, ∃ b, f a = some b ∧ Q a b) → ∃ bs, l.mapM f = some bs ∧ List.Forall₂ Q l bs := by
  intro l
  induction l with
  | nil => intro _; exact ⟨[], rfl, .nil⟩
  | cons a l ih =>
    intro h
    obtain ⟨b, h1, h2⟩ := h a (by simp)
    obtain ⟨bs, h3, h4⟩ := ih fun a' ha' => h a' (by simp [ha'])
    exact ⟨b :: bs, by rw [List.mapM_cons, h1, h3]; rfl, .cons h2 h4⟩

lemma fold_dead : ∀ (vs : List Vec4) (v : Vec4),
    (vs.foldl customReduceOp v).dead = v.dead + (vs.map (·.dead)).sum := by
  intro vs
  induction vs with
  | nil => intro v; simp
  | cons w vs ih => intro v; rw [List.foldl_cons, ih]; simp [customReduceOp]; ring

lemma fold_nbc : ∀ (vs : List Vec4) (v : Vec4),
    (∃ w ∈ v :: vs, w.nbc = (vs.foldl customReduceOp v).nbc ∧ w.rank = (vs.foldl customReduceOp v).rank) ∧
      ∀ w ∈ v :: vs, w.nbc ≤ (vs.foldl customReduceOp v).nbc := by
  intro vs
  induction vs with
  | nil => intro v; simp
  | cons u vs ih =>
    intro v
    rw [List.foldl_cons]
    obtain ⟨⟨w, h1, h2, h3⟩, h4⟩ := ih (customReduceOp v u)
    have h5 := h4 (customReduceOp v u) (by simp)
    have hn : (customReduceOp v u).nbc = if v.nbc < u.nbc then u.nbc else v.nbc := rfl
    have hr : (customReduceOp v u).rank = if v.nbc < u.nbc then u.rank else v.rank := rfl
    constructor
    · rcases List.mem_cons.1 h1 with rfl | h1
      · by_cases hc : v.nbc < u.nbc
        · rw [if_pos hc] at hn hr
          exact ⟨u, by simp, by rw [← h2, hn], by rw [← h3, hr]⟩
        · rw [if_neg hc] at hn hr
          exact ⟨v, by simp, by rw [← h2, hn], by rw [← h3, hr]⟩
      · exact ⟨w, by simp [h1], h2, h3⟩
    · intro w hw
      rcases List.mem_cons.1 hw with rfl | hw
      · split_ifs at hn <;> omega
      · rcases List.mem_cons.1 hw with rfl | hw
        · split_ifs at hn <;> omega
        · exact h4 w (by simp [hw])

lemma fold_op (o : ℤ) : ∀ (vs : List Vec4) (v : Vec4), (∀ w ∈ v :: vs, w.op = 0 ∨ w.op = o) →
    ((vs.foldl customReduceOp v).op = 0 ∨ (vs.foldl customReduceOp v).op = o) ∧
      ((vs.foldl customReduceOp v).op = 0 → ∀ w ∈ v :: vs, w.op = 0) := by
  intro vs
  induction vs with
  | nil =>
    intro v h
    refine ⟨h v (by simp), ?_⟩
    intro h0 w hw
    have : w = v := by simpa using hw
    subst this
    exact h0
  | cons u vs ih =>
    intro v h
    rw [List.foldl_cons]
    have ho : (customReduceOp v u).op = if v.op = 0 then u.op else v.op := rfl
    have hv := h v (by simp)
    have hu := h u (by simp)
    obtain ⟨h1, h2⟩ := ih (customReduceOp v u) (by
      intro w hw
      rcases List.mem_cons.1 hw with rfl | hw
      · rw [ho]; split_ifs <;> assumption
      · exact h w (by simp [hw]))
    refine ⟨h1, ?_⟩
    intro h0 w hw
    have h3 := h2 h0 (customReduceOp v u) (by simp)
    rw [ho] at h3
    have hv0 : v.op = 0 := by
      by_contra hc
      rw [if_neg hc] at h3
      exact hc h3
    rw [if_pos hv0] at h3
    rcases List.mem_cons.1 hw with rfl | hw
    · exact hv0
    · rcases List.mem_cons.1 hw with rfl | hw
      · exact h3
      · exact h2 h0 w (by simp [hw])

/-- What the vector of a process says about the processes `l` below it. -/
structure Says (procs : ℤ → Proc) (o : ℤ) (l : List ℤ) (v : Vec4) : Prop where
  dead : v.dead = (l.filter fun x => (procs x).isDead).length
  nbc : ∀ x ∈ l, ((procs x).nbc : ℤ) ≤ v.nbc
  rank : v.rank ∈ l ∧ ((procs v.rank).nbc : ℤ) = v.nbc
  op : v.op = 0 ∨ v.op = o
  op0 : v.op = 0 → ∀ x ∈ l, (procs x).isDead = true ∨ (procs x).option = 0

lemma forall₂_mem_right {α β : Type} {Q : α → β → Prop} {l : List α} {m : List β}
    (h : List.Forall₂ Q l m) {b : β} (hb : b ∈ m) : ∃ a ∈ l, Q a b := by
  induction h with
  | nil => simp at hb
  | cons hab _ ih =>
    rcases List.mem_cons.1 hb with rfl | hb
    · exact ⟨_, by simp, hab⟩
    · obtain ⟨a, h1, h2⟩ := ih hb
      exact ⟨a, by simp [h1], h2⟩

lemma forall₂_mem_left {α β : Type} {Q : α → β → Prop} {l : List α} {m : List β}
    (h : List.Forall₂ Q l m) {a : α} (ha : a ∈ l) : ∃ b ∈ m, Q a b := by
  induction h with
  | nil => simp at ha
  | cons hab _ ih =>
    rcases List.mem_cons.1 ha with rfl | ha
    · exact ⟨_, by simp, hab⟩
    · obtain ⟨b, h1, h2⟩ := ih ha
      exact ⟨b, by simp [h1], h2⟩

lemma forall₂_dead {procs : ℤ → Proc} {o : ℤ} {D : ℤ → List ℤ} {l : List ℤ} {vs : List Vec4}
    (h : List.Forall₂ (fun s v => Says procs o (D s) v) l vs) :
    (vs.map (·.dead)).sum = (((l.flatMap D).filter fun x => (procs x).isDead).length : ℤ) := by
  induction h with
  | nil => simp
  | cons hab _ ih =>
    rw [List.map_cons, List.sum_cons, ih, hab.dead, List.flatMap_cons, List.filter_append,
      List.length_append]
    push_cast
    ring

lemma reduceAt_says {k : ℕ} (hk : 1 ≤ k) {size : ℤ} {procs : ℤ → Proc} {arrive : ℤ → List ℤ → List ℤ}
    (harr : ∀ r l, (arrive r l).Perm l) {o : ℤ}
    (ho : ∀ x, 0 ≤ x → x < size → (procs x).isDead = false → (procs x).option = o) :
    ∀ (fuel : ℕ) (r : ℤ), 0 ≤ r → r < size → size ≤ r + fuel →
      ∃ v, reduceAt k 0 size procs arrive fuel r = some v ∧ Says procs o (desc k size fuel r) v := by
  intro fuel
  induction fuel with
  | zero => intro r h0 h1 h2; push_cast at h2; omega
  | succ fuel ih =>
    intro r h0 h1 h2
    have hmem := fun s => mem_succ0 (size := size) (s := s) hk h0 h1
    have hperm := harr r (successors k 0 r size)
    obtain ⟨vs, hvs, hall⟩ := mapM_forall₂
      (fun s => if predecessor k 0 s size = r then reduceAt k 0 size procs arrive fuel s else none)
      (fun s v => Says procs o (desc k size fuel s) v) (arrive r (successors k 0 r size)) (by
        intro s hs
        obtain ⟨h3, h4, h5⟩ := (hmem s).1 (hperm.mem_iff.1 hs)
        have h6 := parent_bounds hk h3
        rw [if_pos (by rw [pred0 hk h3 h4]; exact h5)]
        exact ih s (by omega) h4 (by push_cast at h2; omega))
    have hd := forall₂_dead hall
    have hpf : (((arrive r (successors k 0 r size)).flatMap (desc k size fuel)).filter
        fun x => (procs x).isDead).length =
        (((successors k 0 r size).flatMap (desc k size fuel)).filter fun x => (procs x).isDead).length :=
      ((hperm.flatMap_right _).filter _).length_eq
    rw [hpf] at hd
    set v := vs.foldl customReduceOp (initVec (procs r) r) with hv
    have hfd := fold_dead vs (initVec (procs r) r)
    obtain ⟨⟨w, hw1, hw2, hw3⟩, hub⟩ := fold_nbc vs (initVec (procs r) r)
    have hinit : (initVec (procs r) r).op = 0 ∨ (initVec (procs r) r).op = o := by
      unfold initVec
      by_cases hc : (procs r).isDead = true
      · left; simp [hc]
      · right
        have := ho r h0 h1 (by simpa using hc)
        simp [hc, this]
    obtain ⟨hop, hop0⟩ := fold_op o vs (initVec (procs r) r) (by
      intro w hw
      rcases List.mem_cons.1 hw with rfl | hw
      · exact hinit
      · obtain ⟨s, _, h⟩ := forall₂_mem_right hall hw
        exact h.op)
    rw [← hv] at hfd hw2 hw3 hub hop hop0
    have hbelow : ∀ x ∈ (successors k 0 r size).flatMap (desc k size fuel),
        ∃ u ∈ vs, ∃ s, Says procs o (desc k size fuel s) u ∧ x ∈ desc k size fuel s := by
      intro x hx
      obtain ⟨s, hs, hxs⟩ := List.mem_flatMap.1 hx
      obtain ⟨u, hu, hsu⟩ := forall₂_mem_left hall (hperm.mem_iff.2 hs)
      exact ⟨u, hu, s, hsu, hxs⟩
    have hsays : Says procs o (desc k size (fuel + 1) r)
        (if (procs r).isDead then { v with dead := v.dead + 1 } else v) := by
      have e1 : (if (procs r).isDead then { v with dead := v.dead + 1 } else v).nbc = v.nbc := by
        split_ifs <;> rfl
      have e2 : (if (procs r).isDead then { v with dead := v.dead + 1 } else v).rank = v.rank := by
        split_ifs <;> rfl
      have e3 : (if (procs r).isDead then { v with dead := v.dead + 1 } else v).op = v.op := by
        split_ifs <;> rfl
      refine ⟨?_, ?_, ?_, ?_, ?_⟩
      · rw [desc, List.filter_cons]
        have hi0 : (initVec (procs r) r).dead = 0 := rfl
        rw [hi0, zero_add, hd] at hfd
        split_ifs with hc
        · simp only [List.length_cons]
          push_cast
          omega
        · exact hfd
      · intro x hx
        rw [e1]
        rw [desc] at hx
        rcases List.mem_cons.1 hx with rfl | hx
        · exact hub (initVec (procs x) x) (by simp)
        · obtain ⟨u, hu, s, hsu, hxs⟩ := hbelow x hx
          exact le_trans (hsu.nbc x hxs) (hub u (by simp [hu]))
      · rw [e1, e2, ← hw2, ← hw3, desc]
        rcases List.mem_cons.1 hw1 with rfl | hw1
        · exact ⟨by simp [initVec], rfl⟩
        · obtain ⟨s, hs, hsu⟩ := forall₂_mem_right hall hw1
          exact ⟨List.mem_cons_of_mem _ (List.mem_flatMap.2 ⟨s, hperm.mem_iff.1 hs, hsu.rank.1⟩),
            hsu.rank.2⟩
      · rw [e3]; exact hop
      · rw [e3]
        intro h0' x hx
        rw [desc] at hx
        rcases List.mem_cons.1 hx with rfl | hx
        · have := hop0 h0' (initVec (procs x) x) (by simp)
          unfold initVec at this
          by_cases hc : (procs x).isDead = true
          · exact Or.inl hc
          · right
            simpa [hc] using this
        · obtain ⟨u, hu, s, hsu, hxs⟩ := hbelow x hx
          exact hsu.op0 (hop0 h0' u (by simp [hu])) x hxs
    refine ⟨_, ?_, hsays⟩
    rw [reduceAt, hvs]
    rfl

/-- The vector at the root. -/
lemma reduce_root {k : ℕ} (hk : 1 ≤ k) {n : ℕ} (hn : 0 < n) {procs : ℤ → Proc}
    {arrive : ℤ → List ℤ → List ℤ} (harr : ∀ r l, (arrive r l).Perm l) {o : ℤ}
    (ho : ∀ x : ℤ, 0 ≤ x → x < n → (procs x).isDead = false → (procs x).option = o) :
    ∃ v, reduceAt k 0 n procs arrive n 0 = some v ∧ Says procs o (ranks n) v := by
  obtain ⟨v, h1, h2⟩ := reduceAt_says hk harr ho n 0 le_rfl (by omega) (by omega)
  have hp := desc_perm hk hn
  refine ⟨v, h1, ?_⟩
  exact ⟨by rw [h2.dead, (hp.filter _).length_eq], fun x hx => h2.nbc x (hp.mem_iff.2 hx),
    ⟨hp.mem_iff.1 h2.rank.1, h2.rank.2⟩, h2.op, fun h x hx => h2.op0 h x (hp.mem_iff.2 hx)⟩

end Verif.FaultLayer
