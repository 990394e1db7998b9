import Verif.Lemmas.ExchangeHier

/-!
# The exchange for dehierarchization
-/

namespace Verif
namespace Pole

/-- Index `s` needs index `i` to be dehierarchized: `i` is an end of the grid cell around `s` on a
grid of level at least `lmin` that does not contain `s`, where with a one-sided boundary index 0
also stands for the virtual point after the last one. -/
def DehierNeed (P : Pole) (s i : ℤ) : Prop :=
  ∃ (E : ℕ) (a : ℤ), E ≤ P.lmax - P.lmin ∧ (2 : ℤ) ^ E ∣ a ∧ a < s + P.off ∧ s + P.off < a + 2 ^ E ∧
    (i + P.off = a ∨ i + P.off = a + 2 ^ E ∨ (P.b = 1 ∧ a + 2 ^ E = P.n ∧ i = 0))

theorem mapM_some {α β : Type} (f : α → Option β) (Q : α → β → Prop) :
    ∀ ls : List α, (∀ l ∈ ls, ∃ y, f l = some y ∧ Q l y) →
      ∃ ys, ls.mapM f = some ys ∧ (∀ y ∈ ys, ∃ l ∈ ls, Q l y) ∧ (∀ l ∈ ls, ∃ y ∈ ys, Q l y) := by
  intro ls
  induction ls with
  | nil => intro _; exact ⟨[], rfl, by simp, by simp⟩
  | cons l ls ih =>
    intro h
    obtain ⟨y, hy, hq⟩ := h l (by simp)
    obtain ⟨ys, h1, h2, h3⟩ := ih fun l hl => h l (by simp [hl])
    refine ⟨y :: ys, ?_, ?_, ?_⟩
    · rw [List.mapM_cons, hy, h1]; rfl
    · intro z hz
      rw [List.mem_cons] at hz
      rcases hz with rfl | hz
      · exact ⟨l, by simp, hq⟩
      · obtain ⟨l', hl', hq'⟩ := h2 z hz
        exact ⟨l', by simp [hl'], hq'⟩
    · intro l' hl'
      rw [List.mem_cons] at hl'
      rcases hl' with rfl | hl'
      · exact ⟨y, by simp, hq⟩
      · obtain ⟨z, hz, hq'⟩ := h3 l' hl'
        exact ⟨z, by simp [hz], hq'⟩

theorem exists_log (d : ℤ) (E : ℕ) (h0 : 0 < d) (h1 : d < 2 ^ E) :
    ∃ e < E, 2 ^ e ≤ d ∧ d < 2 ^ (e + 1) := by
  induction E with
  | zero => simp at h1; omega
  | succ E ih =>
    rcases lt_or_ge d (2 ^ E) with h | h
    · obtain ⟨e, he, h2⟩ := ih h
      exact ⟨e, by omega, h2⟩
    · exact ⟨E, by omega, h, h1⟩

theorem level_succ (P : Pole) (x s : ℤ) (e : ℕ) (he : e < P.lmax) (hd : (2 : ℤ) ^ (e + 1) ∣ x + P.off)
    (hs : s = x - 2 ^ e ∨ s = x + 2 ^ e) : P.level s = P.lmax - e := by
  have hp : (2 : ℤ) ^ (e + 1) = 2 * 2 ^ e := by rw [pow_succ]; ring
  have hw := two_pow_pos e
  have hde : (2 : ℤ) ^ e ∣ x + P.off := dvd_trans (pow_dvd_pow 2 (by omega)) hd
  have hnd : ¬ (2 : ℤ) ^ (e + 1) ∣ 2 ^ e := by
    intro hc
    have := Int.le_of_dvd hw hc
    omega
  have h1 := P.level_le_iff s e (by omega)
  have h2 := P.level_le_iff s (e + 1) (by omega)
  push_cast at h2
  have a1 : (2 : ℤ) ^ e ∣ s + P.off := by
    rcases hs with rfl | rfl
    · rw [show x - 2 ^ e + P.off = x + P.off - 2 ^ e by ring]; exact dvd_sub hde (dvd_refl _)
    · rw [show x + 2 ^ e + P.off = x + P.off + 2 ^ e by ring]; exact dvd_add hde (dvd_refl _)
  have a2 : ¬ (2 : ℤ) ^ (e + 1) ∣ s + P.off := by
    rcases hs with rfl | rfl
    · rw [show x - 2 ^ e + P.off = x + P.off - 2 ^ e by ring]
      exact fun hc => hnd ((dvd_sub_right hd).1 hc)
    · rw [show x + 2 ^ e + P.off = x + P.off + 2 ^ e by ring]
      exact fun hc => hnd ((dvd_add_right hd).1 hc)
  have b1 := h1.2 a1
  have b2 := h2.not.2 a2
  omega

/-- What `checkLeftSuccesors` sends. -/
theorem checkLeft_spec (P : Pole) (h : P.Ok) (root : ℤ) :
    ∀ (fuel : ℕ) (x : ℤ), 0 ≤ x → x < P.n → P.ex x < fuel →
      (x = root ∨ (x ≠ root ∧ x < root ∧ P.ex x < P.lmax - P.lmin)) →
      ∃ L, P.checkLeft root fuel x = some L ∧ ∀ r i, (r, i) ∈ L ↔ i = root ∧
        ∃ (s : ℤ) (E : ℕ), P.owner s = some r ∧ s < P.idxMin ∧ E ≤ P.lmax - P.lmin ∧
          (2 : ℤ) ^ E ∣ x + P.off ∧ s < x ∧ x - s < 2 ^ E := by
  have hl := h.hl
  intro fuel
  induction fuel with
  | zero => intro x _ _ h; omega
  | succ fuel ih =>
    intro x h0 h1 hf hroot
    obtain ⟨s1, s2, s3⟩ := P.ex_spec h x h0 h1
    obtain ⟨ys, hys, hy1, hy2⟩ := mapM_some (fun (l : ℤ) =>
        let s := x - tableShift (P.lmax - l)
        let sl := P.level s
        if x = root ∧ sl ≤ P.lmin then some []
        else
          let here := if s ≥ 0 ∧ s < P.idxMin then
            (if sl > P.lmin then P.insertFor s root else []) else []
          if s ≥ 0 then (P.checkLeft root fuel s).map (here ++ ·) else some here)
      (fun l y => ∃ e : ℕ, e < P.lmax ∧ l = P.lmax - e ∧ (2 : ℤ) ^ (e + 1) ∣ x + P.off ∧
        ∀ r i, (r, i) ∈ y ↔ i = root ∧ e < P.lmax - P.lmin ∧ ∃ s, P.owner s = some r ∧
          s < P.idxMin ∧ 2 ^ e ≤ x - s ∧ x - s < 2 ^ (e + 1))
      (P.levelsAbove (P.level x)) (by
        intro l hl'
        obtain ⟨e, he, rfl, hd⟩ := (P.mem_levelsAbove h x h0 h1 l).1 hl'
        have hw := two_pow_pos e
        have hp : (2 : ℤ) ^ (e + 1) = 2 * 2 ^ e := by rw [pow_succ]; ring
        have hlev := P.level_succ x (x - 2 ^ e) e he hd (Or.inl rfl)
        have hee := (s3 (e + 1) (by omega)).1 hd
        simp only [P.tableShift_eq h e he (P.lmax - (P.lmax - (e : ℤ))) (by omega), hlev]
        by_cases hc : x = root ∧ (P.lmax : ℤ) - e ≤ P.lmin
        · rw [if_pos hc]
          refine ⟨[], rfl, e, he, rfl, hd, ?_⟩
          intro r i
          simp only [List.not_mem_nil, false_iff]
          rintro ⟨_, hcc, _⟩
          omega
        · rw [if_neg hc]
          have hem : e < P.lmax - P.lmin := by
            rcases hroot with hr | hr
            · have : ¬ (P.lmax : ℤ) - e ≤ P.lmin := fun h => hc ⟨hr, h⟩
              omega
            · omega
          rw [if_pos (show (P.lmax : ℤ) - e > P.lmin by omega)]
          by_cases hs : x - 2 ^ e ≥ 0
          · rw [if_pos hs]
            obtain ⟨t1, t2, t3⟩ := P.ex_spec h (x - 2 ^ e) hs (by omega)
            have hex : P.ex (x - 2 ^ e) = e := by omega
            obtain ⟨L, hL, hLm⟩ := ih (x - 2 ^ e) hs (by omega) (by omega)
              (Or.inr ⟨by omega, by omega, by omega⟩)
            refine ⟨_, by rw [hL]; rfl, e, he, rfl, hd, ?_⟩
            intro r i
            rw [List.mem_append, hLm]
            constructor
            · rintro (hm | ⟨rfl, s, E, ho, hsm, hE, hEd, hlt, hgt⟩)
              · split_ifs at hm with hc2
                · rw [mem_insertFor] at hm
                  exact ⟨hm.2, hem, _, hm.1, hc2.2, by omega, by omega⟩
                · simp at hm
              · refine ⟨rfl, hem, s, ho, hsm, by omega, ?_⟩
                rw [t3 E (by omega), hex] at hEd
                have : (2 : ℤ) ^ E ≤ 2 ^ e := pow_le_pow_right₀ (by norm_num) hEd
                omega
            · rintro ⟨rfl, _, s, ho, hsm, hge, hlt⟩
              rcases eq_or_lt_of_le hge with heq | hlt'
              · left
                have hse : s = x - 2 ^ e := by omega
                have hsr := (P.owner_iff h s r).1 ho
                subst hse
                rw [if_pos ⟨by omega, hsm⟩, mem_insertFor]
                exact ⟨ho, rfl⟩
              · right
                exact ⟨rfl, s, e, ho, hsm, by omega, (t3 e (by omega)).2 (by omega), by omega,
                  by omega⟩
          · rw [if_neg hs, if_neg (by omega)]
            refine ⟨[], rfl, e, he, rfl, hd, ?_⟩
            intro r i
            simp only [List.not_mem_nil, false_iff]
            rintro ⟨_, _, s, ho, _, hge, _⟩
            have := (P.owner_iff h s r).1 ho
            omega)
    refine ⟨ys.flatten, ?_, ?_⟩
    · rw [checkLeft]
      simp only [Option.bind_eq_bind]
      rw [hys, Option.bind_some]
    · intro r i
      rw [List.mem_flatten]
      constructor
      · rintro ⟨y, hy, hm⟩
        obtain ⟨l, -, e, he, -, hd, hq⟩ := hy1 y hy
        obtain ⟨rfl, hem, s, ho, hsm, hge, hlt⟩ := (hq r i).1 hm
        have hw := two_pow_pos e
        exact ⟨rfl, s, e + 1, ho, hsm, by omega, hd, by omega, hlt⟩
      · rintro ⟨rfl, s, E, ho, hsm, hE, hEd, hlt, hgt⟩
        obtain ⟨e, he, h2, h3⟩ := exists_log (x - s) E (by omega) hgt
        have hd : (2 : ℤ) ^ (e + 1) ∣ x + P.off := dvd_trans (pow_dvd_pow 2 (by omega)) hEd
        obtain ⟨y, hy, e', he', hl', hd', hq⟩ := hy2 (P.lmax - e)
          ((P.mem_levelsAbove h x h0 h1 _).2 ⟨e, by omega, rfl, hd⟩)
        have : e' = e := by omega
        subst this
        exact ⟨y, hy, (hq r i).2 ⟨rfl, by omega, s, ho, hsm, h2, h3⟩⟩

/-- What `checkRightSuccesors` sends. -/
theorem checkRight_spec (P : Pole) (h : P.Ok) (hne : 0 ≤ P.idxMax) (root : ℤ) :
    ∀ (fuel : ℕ) (x : ℤ), 0 ≤ x → x < P.n → P.ex x < fuel →
      (x = root ∨ (x ≠ root ∧ P.ex x < P.lmax - P.lmin)) → root ≤ x →
      ∃ L, P.checkRight root fuel x = some L ∧ ∀ r i, (r, i) ∈ L ↔ i = root ∧
        ∃ (s : ℤ) (E : ℕ), s < P.n ∧ ((P.owner s = some r ∧ P.idxMax < s) ∨
            (root = 0 ∧ P.b = 1 ∧ P.owner (P.n - s) = some r ∧ P.idxMax < P.n - s)) ∧
          E ≤ P.lmax - P.lmin ∧ (2 : ℤ) ^ E ∣ x + P.off ∧ x < s ∧ s - x < 2 ^ E := by
  have hl := h.hl
  intro fuel
  induction fuel with
  | zero => intro x _ _ h; omega
  | succ fuel ih =>
    intro x h0 h1 hf hroot hrx
    obtain ⟨s1, s2, s3⟩ := P.ex_spec h x h0 h1
    obtain ⟨ys, hys, hy1, hy2⟩ := mapM_some (fun (l : ℤ) =>
        let s := x + tableShift (P.lmax - l)
        let sl := P.level s
        if x = root ∧ sl ≤ P.lmin then some []
        else
          let here := if sl > P.lmin then
            (if s < P.n ∧ s > P.idxMax then P.insertFor s root else []) ++
            (if root = 0 ∧ P.b = 1 then
              (if P.n - s > P.idxMax then P.insertFor (P.n - s) root else []) else [])
            else []
          if s < P.n then (P.checkRight root fuel s).map (here ++ ·) else some here)
      (fun l y => ∃ e : ℕ, e < P.lmax ∧ l = P.lmax - e ∧ (2 : ℤ) ^ (e + 1) ∣ x + P.off ∧
        ∀ r i, (r, i) ∈ y ↔ i = root ∧ e < P.lmax - P.lmin ∧ ∃ s, s < P.n ∧
          ((P.owner s = some r ∧ P.idxMax < s) ∨
            (root = 0 ∧ P.b = 1 ∧ P.owner (P.n - s) = some r ∧ P.idxMax < P.n - s)) ∧
          2 ^ e ≤ s - x ∧ s - x < 2 ^ (e + 1))
      (P.levelsAbove (P.level x)) (by
        intro l hl'
        obtain ⟨e, he, rfl, hd⟩ := (P.mem_levelsAbove h x h0 h1 l).1 hl'
        have hw := two_pow_pos e
        have hp : (2 : ℤ) ^ (e + 1) = 2 * 2 ^ e := by rw [pow_succ]; ring
        have hlev := P.level_succ x (x + 2 ^ e) e he hd (Or.inr rfl)
        have hee := (s3 (e + 1) (by omega)).1 hd
        simp only [P.tableShift_eq h e he (P.lmax - (P.lmax - (e : ℤ))) (by omega), hlev]
        by_cases hc : x = root ∧ (P.lmax : ℤ) - e ≤ P.lmin
        · rw [if_pos hc]
          refine ⟨[], rfl, e, he, rfl, hd, ?_⟩
          intro r i
          simp only [List.not_mem_nil, false_iff]
          rintro ⟨_, hcc, _⟩
          omega
        · rw [if_neg hc]
          have hem : e < P.lmax - P.lmin := by
            rcases hroot with hr | hr
            · have : ¬ (P.lmax : ℤ) - e ≤ P.lmin := fun h => hc ⟨hr, h⟩
              omega
            · omega
          rw [if_pos (show (P.lmax : ℤ) - e > P.lmin by omega)]
          have hhere : ∀ r i, (r, i) ∈
              (if x + 2 ^ e < P.n ∧ x + 2 ^ e > P.idxMax then P.insertFor (x + 2 ^ e) root else []) ++
              (if root = 0 ∧ P.b = 1 then (if P.n - (x + 2 ^ e) > P.idxMax then
                P.insertFor (P.n - (x + 2 ^ e)) root else []) else []) ↔
              i = root ∧ x + 2 ^ e < P.n ∧ ((P.owner (x + 2 ^ e) = some r ∧ P.idxMax < x + 2 ^ e) ∨
                (root = 0 ∧ P.b = 1 ∧ P.owner (P.n - (x + 2 ^ e)) = some r ∧
                  P.idxMax < P.n - (x + 2 ^ e))) := by
            intro r i
            rw [List.mem_append]
            constructor
            · rintro (hm | hm)
              · split_ifs at hm with hc2
                · rw [mem_insertFor] at hm
                  exact ⟨hm.2, hc2.1, Or.inl ⟨hm.1, hc2.2⟩⟩
                · simp at hm
              · split_ifs at hm with hc2 hc3
                · rw [mem_insertFor] at hm
                  exact ⟨hm.2, by omega, Or.inr ⟨hc2.1, hc2.2, hm.1, hc3⟩⟩
                · simp at hm
                · simp at hm
            · rintro ⟨rfl, hn, hc2 | hc2⟩
              · left
                rw [if_pos ⟨hn, hc2.2⟩, mem_insertFor]
                exact ⟨hc2.1, rfl⟩
              · right
                rw [if_pos ⟨hc2.1, hc2.2.1⟩, if_pos hc2.2.2.2, mem_insertFor]
                exact ⟨hc2.2.2.1, rfl⟩
          by_cases hs : x + 2 ^ e < P.n
          · rw [if_pos hs]
            obtain ⟨t1, t2, t3⟩ := P.ex_spec h (x + 2 ^ e) (by omega) hs
            have hex : P.ex (x + 2 ^ e) = e := by omega
            obtain ⟨L, hL, hLm⟩ := ih (x + 2 ^ e) (by omega) hs (by omega)
              (Or.inr ⟨by omega, by omega⟩) (by omega)
            refine ⟨_, by rw [hL]; rfl, e, he, rfl, hd, ?_⟩
            intro r i
            rw [List.mem_append, hLm, hhere]
            constructor
            · rintro (⟨rfl, hn, hm⟩ | ⟨rfl, s, E, hsn, ho, hE, hEd, hlt, hgt⟩)
              · exact ⟨rfl, hem, _, hn, hm, by omega, by omega⟩
              · refine ⟨rfl, hem, s, hsn, ho, by omega, ?_⟩
                rw [t3 E (by omega), hex] at hEd
                have : (2 : ℤ) ^ E ≤ 2 ^ e := pow_le_pow_right₀ (by norm_num) hEd
                omega
            · rintro ⟨rfl, _, s, hsn, ho, hge, hlt⟩
              rcases eq_or_lt_of_le hge with heq | hlt'
              · left
                have hse : s = x + 2 ^ e := by omega
                subst hse
                exact ⟨rfl, hsn, ho⟩
              · right
                exact ⟨rfl, s, e, hsn, ho, by omega, (t3 e (by omega)).2 (by omega), by omega,
                  by omega⟩
          · rw [if_neg hs]
            refine ⟨_, rfl, e, he, rfl, hd, ?_⟩
            intro r i
            rw [hhere]
            constructor
            · rintro ⟨_, hn, _⟩
              omega
            · rintro ⟨_, _, s, hsn, _, hge, _⟩
              omega)
    refine ⟨ys.flatten, ?_, ?_⟩
    · rw [checkRight]
      simp only [Option.bind_eq_bind]
      rw [hys, Option.bind_some]
    · intro r i
      rw [List.mem_flatten]
      constructor
      · rintro ⟨y, hy, hm⟩
        obtain ⟨l, -, e, he, -, hd, hq⟩ := hy1 y hy
        obtain ⟨rfl, hem, s, hsn, ho, hge, hlt⟩ := (hq r i).1 hm
        have hw := two_pow_pos e
        exact ⟨rfl, s, e + 1, hsn, ho, by omega, hd, by omega, hlt⟩
      · rintro ⟨rfl, s, E, hsn, ho, hE, hEd, hlt, hgt⟩
        obtain ⟨e, he, h2, h3⟩ := exists_log (s - x) E (by omega) hgt
        have hd : (2 : ℤ) ^ (e + 1) ∣ x + P.off := dvd_trans (pow_dvd_pow 2 (by omega)) hEd
        obtain ⟨y, hy, e', he', hl', hd', hq⟩ := hy2 (P.lmax - e)
          ((P.mem_levelsAbove h x h0 h1 _).2 ⟨e, by omega, rfl, hd⟩)
        have : e' = e := by omega
        subst this
        exact ⟨y, hy, (hq r i).2 ⟨rfl, by omega, s, hsn, ho, h2, h3⟩⟩

/-! ### Predecessors -/

theorem getLevel_toNat (P : Pole) (x : ℤ) (h0 : 0 ≤ x) : getLevel P.lmax P.b x.toNat = P.level x := by
  unfold getLevel level getLevelZ
  by_cases hb : P.b = 0
  · simp only [hb, if_true]
    rw [show (x + 1).natAbs = x.toNat + 1 by omega]
    exact if_congr (by omega) rfl rfl
  · simp only [hb, if_false]
    rw [show x.natAbs = x.toNat by omega]
    exact if_congr (by omega) rfl rfl

theorem leftPred_eq (P : Pole) (h : P.Ok) (x : ℤ) (h0 : 0 ≤ x) (h1 : x < P.n)
    (hex : P.ex x < P.lmax) : P.leftPred x = x - 2 ^ P.ex x := by
  obtain ⟨s1, s2, s3⟩ := P.ex_spec h x h0 h1
  unfold leftPred getLeftPredecessor
  simp only [P.getLevel_toNat x h0]
  rw [if_neg (by omega)]
  congr 1
  omega

theorem rightPred_eq (P : Pole) (h : P.Ok) (x : ℤ) (h0 : 0 ≤ x) (h1 : x < P.n)
    (hex : P.ex x < P.lmax) : P.rightPred x =
      if P.b = 1 ∧ x + 2 ^ P.ex x = P.n then P.n
      else if P.n ≤ x + 2 ^ P.ex x then -1 else x + 2 ^ P.ex x := by
  obtain ⟨s1, s2, s3⟩ := P.ex_spec h x h0 h1
  unfold rightPred getRightPredecessor
  simp only [P.getLevel_toNat x h0]
  rw [if_neg (by omega)]
  have e1 : ((x.toNat : ℕ) : ℤ) = x := by omega
  have e2 : (((P.lmax : ℤ) - P.level x).toNat) = P.ex x := rfl
  have e3 : ((poleLength P.lmax P.b : ℕ) : ℤ) = P.n := rfl
  rw [e1, e2, e3]
  refine if_congr Iff.rfl rfl ?_
  exact if_congr (by omega) rfl rfl

theorem cell_ex (P : Pole) (h : P.Ok) (x : ℤ) (h0 : 0 ≤ x) (h1 : x < P.n) (E : ℕ) (a : ℤ)
    (hE : E ≤ P.lmax) (ha : (2 : ℤ) ^ E ∣ a) (h2 : a < x + P.off) (h3 : x + P.off < a + 2 ^ E) :
    P.ex x < E ∧ a ≤ x + P.off - 2 ^ P.ex x ∧ x + P.off + 2 ^ P.ex x ≤ a + 2 ^ E := by
  obtain ⟨s1, s2, s3⟩ := P.ex_spec h x h0 h1
  have hlt : P.ex x < E := by
    by_contra hc
    have hd : (2 : ℤ) ^ E ∣ x + P.off := (s3 E hE).2 (by omega)
    have := Int.le_of_dvd (by omega) (dvd_sub hd ha)
    omega
  have hx := (s3 (P.ex x) s2).2 (le_refl _)
  have ha' : (2 : ℤ) ^ P.ex x ∣ a := dvd_trans (pow_dvd_pow 2 (by omega)) ha
  have d1 := Int.le_of_dvd (by omega) (dvd_sub hx ha')
  have d2 := Int.le_of_dvd (by omega)
    (dvd_sub (dvd_add ha' (pow_dvd_pow (2 : ℤ) (le_of_lt hlt))) hx)
  exact ⟨hlt, by omega, by omega⟩

theorem pow_dvd_step (P : Pole) (h : P.Ok) (x : ℤ) (h0 : 0 ≤ x) (h1 : x < P.n)
    (hex : P.ex x < P.lmax) :
    (2 : ℤ) ^ (P.ex x + 1) ∣ x + P.off - 2 ^ P.ex x ∧ (2 : ℤ) ^ (P.ex x + 1) ∣ x + P.off + 2 ^ P.ex x := by
  obtain ⟨s1, s2, s3⟩ := P.ex_spec h x h0 h1
  obtain ⟨m, hm⟩ := (s3 (P.ex x) s2).2 (le_refl _)
  have hp : (2 : ℤ) ^ (P.ex x + 1) = 2 * 2 ^ P.ex x := by rw [pow_succ]; ring
  have hodd : ¬ (2 : ℤ) ∣ m := by
    rintro ⟨k, rfl⟩
    have := (s3 (P.ex x + 1) (by omega)).1 ⟨k, by rw [hm, hp]; ring⟩
    omega
  constructor
  · obtain ⟨k, hk⟩ : (2 : ℤ) ∣ m - 1 := by omega
    exact ⟨k, by rw [hp]; linear_combination hm + 2 ^ P.ex x * hk⟩
  · obtain ⟨k, hk⟩ : (2 : ℤ) ∣ m + 1 := by omega
    exact ⟨k, by rw [hp]; linear_combination hm + 2 ^ P.ex x * hk⟩

/-- What a predecessor needs, the point needs. -/
theorem need_trans (P : Pole) (h : P.Ok) (x : ℤ) (h0 : 0 ≤ x) (h1 : x < P.n)
    (hex : P.ex x < P.lmax - P.lmin) (y i : ℤ) (hy : y = x - 2 ^ P.ex x ∨ y = x + 2 ^ P.ex x)
    (hn : P.DehierNeed y i) : P.DehierNeed x i := by
  obtain ⟨E, a, hE, ha, h2, h3, hi⟩ := hn
  obtain ⟨d1, d2⟩ := P.pow_dvd_step h x h0 h1 (by omega)
  have hw := two_pow_pos (P.ex x)
  have hp : (2 : ℤ) ^ (P.ex x + 1) = 2 * 2 ^ P.ex x := by rw [pow_succ]; ring
  have hdy : (2 : ℤ) ^ (P.ex x + 1) ∣ y + P.off := by
    rcases hy with rfl | rfl
    · rw [show x - 2 ^ P.ex x + P.off = x + P.off - 2 ^ P.ex x by ring]; exact d1
    · rw [show x + 2 ^ P.ex x + P.off = x + P.off + 2 ^ P.ex x by ring]; exact d2
  have hlt : P.ex x + 1 < E := by
    by_contra hc
    have hd : (2 : ℤ) ^ E ∣ y + P.off := dvd_trans (pow_dvd_pow 2 (by omega)) hdy
    have := Int.le_of_dvd (by omega) (dvd_sub hd ha)
    omega
  have ha' : (2 : ℤ) ^ (P.ex x + 1) ∣ a := dvd_trans (pow_dvd_pow 2 (by omega)) ha
  have e1 := Int.le_of_dvd (by omega) (dvd_sub hdy ha')
  have e2 := Int.le_of_dvd (by omega)
    (dvd_sub (dvd_add ha' (pow_dvd_pow (2 : ℤ) (le_of_lt hlt))) hdy)
  exact ⟨E, a, hE, ha, by omega, by omega, hi⟩

theorem need_direct (P : Pole) (h : P.Ok) (x : ℤ) (h0 : 0 ≤ x) (h1 : x < P.n)
    (hex : P.ex x < P.lmax - P.lmin) (i : ℤ)
    (hi : i = x - 2 ^ P.ex x ∨ i = x + 2 ^ P.ex x ∨ (P.b = 1 ∧ x + 2 ^ P.ex x = P.n ∧ i = 0)) :
    P.DehierNeed x i := by
  obtain ⟨d1, -⟩ := P.pow_dvd_step h x h0 h1 (by omega)
  have hw := two_pow_pos (P.ex x)
  have hp : (2 : ℤ) ^ (P.ex x + 1) = 2 * 2 ^ P.ex x := by rw [pow_succ]; ring
  refine ⟨P.ex x + 1, x + P.off - 2 ^ P.ex x, by omega, d1, by omega, by omega, ?_⟩
  rcases hi with rfl | rfl | ⟨hb, hn, rfl⟩
  · left; ring
  · right; left; omega
  · right; right
    have := ((P.pos_range h x h0 h1).2.2.1 hb).1
    exact ⟨hb, by omega, rfl⟩

/-- The property of the results of `checkPredecessors` that is preserved by the recursion. -/
structure PredsSpec (P : Pole) (x : ℤ) (L : List (ℤ × ℤ)) (nx : ℤ) : Prop where
  sound : ∀ r i, (r, i) ∈ L → P.owner i = some r ∧ r ≠ P.c ∧ P.DehierNeed x i
  left : x ≤ P.idxMin → ∀ (E : ℕ) (a i r : ℤ), E ≤ P.lmax - P.lmin → (2 : ℤ) ^ E ∣ a →
    a < x + P.off → x + P.off < a + 2 ^ E → i + P.off = a → P.owner i = some r → (r, i) ∈ L
  right : P.idxMax ≤ x → ∀ (E : ℕ) (a i r : ℤ), E ≤ P.lmax - P.lmin → (2 : ℤ) ^ E ∣ a →
    a < x + P.off → x + P.off < a + 2 ^ E →
    (i + P.off = a + 2 ^ E ∨ (P.b = 1 ∧ a + 2 ^ E = P.n ∧ i = 0)) → P.owner i = some r →
    r ≠ P.c → (r, i) ∈ L
  next : P.idxMin ≤ x → x ≤ P.idxMax → P.Step x nx

theorem mem_insertRaw (P : Pole) (x i r j q : ℤ) (hq : P.owner x = some q) :
    (r, j) ∈ P.insertRaw x i ↔ P.owner x = some r ∧ j = i := by
  unfold insertRaw
  rw [hq]
  simp only [Option.getD_some, List.mem_cons, Prod.mk.injEq, List.not_mem_nil, or_false,
    Option.some.injEq]
  tauto

theorem not_self (P : Pole) (h : P.Ok) (i r : ℤ) (ho : P.owner i = some r)
    (hi : i < P.idxMin ∨ P.idxMax < i) : r ≠ P.c := by
  rintro rfl
  have := (P.owner_self h i).1 ho
  omega

theorem outside (P : Pole) (h : P.Ok) (i r : ℤ) (ho : P.owner i = some r) (hr : r ≠ P.c) :
    ¬ (P.idxMin ≤ i ∧ i ≤ P.idxMax) := by
  intro hc
  rw [(P.owner_self h i).2 hc] at ho
  simp only [Option.some.injEq] at ho
  exact hr ho.symm

/-- What `checkPredecessors` receives. -/
theorem checkPreds_spec (P : Pole) (h : P.Ok) (hne : P.idxMin ≤ P.idxMax) :
    ∀ (fuel : ℕ) (x : ℤ), 0 ≤ x → x < P.n → P.level x < fuel →
      ∃ L nx, P.checkPreds fuel x = some (L, nx) ∧ P.PredsSpec x L nx := by
  have hl := h.hl
  have hb := P.bounds h
  intro fuel
  induction fuel with
  | zero =>
    intro x h0 h1 hf
    have := P.level_nonneg h x h0 h1
    push_cast at hf
    omega
  | succ fuel ih =>
    intro x h0 h1 hf
    obtain ⟨s1, s2, s3⟩ := P.ex_spec h x h0 h1
    have hw := two_pow_pos (P.ex x)
    -- the next index is the right neighbour whenever the right predecessor is not local
    have hnext : (P.ex x ≠ 0 ∨ P.idxMax ≤ x) → P.nextIndex x = x + 1 := by
      intro hc
      apply P.nextIndex_eq x _ (by omega)
      rcases hc with hc | hc
      · right
        have := (s3 1 (by omega)).2 (by omega)
        rw [pow_one] at this
        omega
      · left; exact hc
    rw [checkPreds]
    by_cases hlev : P.level x ≤ P.lmin ∨ x < 0
    · rw [if_pos hlev]
      have hex : P.lmax - P.lmin ≤ P.ex x := by omega
      refine ⟨_, _, rfl, by simp, ?_, ?_, ?_⟩
      · intro _ E a i r hE ha h2 h3
        have := (P.cell_ex h x h0 h1 E a (by omega) ha h2 h3).1
        omega
      · intro _ E a i r hE ha h2 h3
        have := (P.cell_ex h x h0 h1 E a (by omega) ha h2 h3).1
        omega
      · intro _ _
        left
        exact hnext (Or.inl (by omega))
    · rw [if_neg hlev]
      have hex : P.ex x < P.lmax - P.lmin := by omega
      have hlp := P.leftPred_eq h x h0 h1 (by omega)
      have hrp := P.rightPred_eq h x h0 h1 (by omega)
      obtain ⟨d1, d2⟩ := P.pow_dvd_step h x h0 h1 (by omega)
      have hpr := P.pos_range h x h0 h1
      simp only [hlp]
      -- results for the left predecessor
      obtain ⟨R2, hR2, hR2s, hR2l⟩ : ∃ R2, (ite (x - 2 ^ P.ex x ≥ 0 ∧
          P.level (x - 2 ^ P.ex x) ≥ P.lmin) ((P.checkPreds fuel (x - 2 ^ P.ex x)).map Prod.fst)
          (some []) : Option (List (ℤ × ℤ))) = some R2 ∧
          (∀ r i, (r, i) ∈ R2 → P.owner i = some r ∧ r ≠ P.c ∧ P.DehierNeed x i) ∧
          (x ≤ P.idxMin → ∀ (E : ℕ) (a i r : ℤ), E ≤ P.lmax - P.lmin → (2 : ℤ) ^ E ∣ a →
            a < x - 2 ^ P.ex x + P.off → x + P.off < a + 2 ^ E → i + P.off = a →
            P.owner i = some r → (r, i) ∈ R2) := by
        by_cases hc : x - 2 ^ P.ex x ≥ 0 ∧ P.level (x - 2 ^ P.ex x) ≥ P.lmin
        · rw [if_pos hc]
          obtain ⟨t1, t2, t3⟩ := P.ex_spec h (x - 2 ^ P.ex x) hc.1 (by omega)
          have hlt := (t3 (P.ex x + 1) (by omega)).1
            (by rw [show x - 2 ^ P.ex x + P.off = x + P.off - 2 ^ P.ex x by ring]; exact d1)
          obtain ⟨L, nx, hL, hs⟩ := ih (x - 2 ^ P.ex x) hc.1 (by omega)
            (by push_cast at hf; omega)
          refine ⟨L, by rw [hL]; rfl, ?_, ?_⟩
          · intro r i hm
            obtain ⟨a1, a2, a3⟩ := hs.sound r i hm
            exact ⟨a1, a2, P.need_trans h x h0 h1 hex _ i (Or.inl rfl) a3⟩
          · intro hx E a i r hE ha h2 h3 hi ho
            exact hs.left (by omega) E a i r hE ha h2 (by omega) hi ho
        · rw [if_neg hc]
          refine ⟨[], rfl, by simp, ?_⟩
          intro hx E a i r hE ha h2 h3 hi ho
          exfalso
          have hi0 := ((P.owner_iff h i r).1 ho).1
          apply hc
          have hge : x - 2 ^ P.ex x ≥ 0 := by omega
          refine ⟨hge, ?_⟩
          obtain ⟨t1, -, -⟩ := P.ex_spec h (x - 2 ^ P.ex x) hge (by omega)
          have := (P.cell_ex h (x - 2 ^ P.ex x) hge (by omega) E a (by omega) ha h2 (by omega)).1
          omega
      rw [hR2, Option.bind_some]
      -- the left predecessor itself
      have hr1 : ∀ r i, (r, i) ∈ (if x - 2 ^ P.ex x ≥ 0 ∧ x - 2 ^ P.ex x < P.idxMin then
          P.insertRaw (x - 2 ^ P.ex x) (x - 2 ^ P.ex x) else []) ↔
          i = x - 2 ^ P.ex x ∧ P.owner i = some r ∧ i < P.idxMin := by
        intro r i
        split_ifs with hc
        · obtain ⟨q, hq⟩ := P.owner_exists h (x - 2 ^ P.ex x) hc.1 (by omega)
          rw [P.mem_insertRaw _ _ _ _ q hq]
          constructor
          · rintro ⟨a1, rfl⟩; exact ⟨rfl, a1, hc.2⟩
          · rintro ⟨rfl, a1, _⟩; exact ⟨a1, rfl⟩
        · simp only [List.not_mem_nil, false_iff]
          rintro ⟨rfl, a1, a2⟩
          have := (P.owner_iff h _ r).1 a1
          omega
      generalize (if x - 2 ^ P.ex x ≥ 0 ∧ x - 2 ^ P.ex x < P.idxMin then
          P.insertRaw (x - 2 ^ P.ex x) (x - 2 ^ P.ex x) else []) = R1 at hr1 ⊢
      have hs12 : ∀ r i, (r, i) ∈ R1 ++ R2 → P.owner i = some r ∧ r ≠ P.c ∧ P.DehierNeed x i := by
        intro r i hm
        rw [List.mem_append] at hm
        rcases hm with hm | hm
        · obtain ⟨e1, e2, e3⟩ := (hr1 r i).1 hm
          exact ⟨e2, P.not_self h i r e2 (Or.inl e3), P.need_direct h x h0 h1 hex i (Or.inl e1)⟩
        · exact hR2s r i hm
      have hl12 : x ≤ P.idxMin → ∀ (E : ℕ) (a i r : ℤ), E ≤ P.lmax - P.lmin → (2 : ℤ) ^ E ∣ a →
          a < x + P.off → x + P.off < a + 2 ^ E → i + P.off = a → P.owner i = some r →
          (r, i) ∈ R1 ++ R2 := by
        intro hx E a i r hE ha h2 h3 hi ho
        obtain ⟨c1, c2, c3⟩ := P.cell_ex h x h0 h1 E a (by omega) ha h2 h3
        rw [List.mem_append]
        rcases eq_or_lt_of_le c2 with hc | hc
        · left
          exact (hr1 r i).2 ⟨by omega, ho, by omega⟩
        · right
          exact hR2l hx E a i r hE ha (by omega) h3 hi ho
      -- the right predecessor
      by_cases hwr : P.b = 1 ∧ x + 2 ^ P.ex x = P.n
      · -- wraps around
        rw [if_pos hwr] at hrp
        rw [hrp, if_neg (by omega), if_pos (by omega), if_pos ⟨hwr.1, rfl⟩]
        obtain ⟨q, hq⟩ := P.owner_exists h 0 (by omega) (by omega)
        have hr3 : ∀ r i, (r, i) ∈ (if P.idxMin > 0 then
            (if (P.owner 0).getD (-1) ≠ P.c then P.insertRaw 0 0 else []) else []) ↔
            i = 0 ∧ P.owner 0 = some r ∧ r ≠ P.c := by
          intro r i
          have hself := P.owner_self h 0
          by_cases hm : P.idxMin > 0
          · rw [if_pos hm, hq, Option.getD_some]
            have hqc : q ≠ P.c := by
              rintro rfl
              have := hself.1 hq
              omega
            rw [if_pos hqc, P.mem_insertRaw _ _ _ _ q hq, hq]
            simp only [Option.some.injEq]
            constructor
            · rintro ⟨rfl, rfl⟩; exact ⟨rfl, rfl, hqc⟩
            · rintro ⟨rfl, rfl, _⟩; exact ⟨rfl, rfl⟩
          · rw [if_neg hm]
            simp only [List.not_mem_nil, false_iff]
            rintro ⟨rfl, a1, a2⟩
            rw [hself.2 (by omega)] at a1
            simp only [Option.some.injEq] at a1
            exact a2 a1.symm
        refine ⟨_, _, rfl, ?_, ?_, ?_, ?_⟩
        · intro r i hm
          rw [List.mem_append] at hm
          rcases hm with hm | hm
          · exact hs12 r i hm
          · obtain ⟨rfl, e2, e3⟩ := (hr3 r i).1 hm
            exact ⟨e2, e3, P.need_direct h x h0 h1 hex 0 (Or.inr (Or.inr ⟨hwr.1, hwr.2, rfl⟩))⟩
        · intro hx E a i r hE ha h2 h3 hi ho
          rw [List.mem_append]
          exact Or.inl (hl12 hx E a i r hE ha h2 h3 hi ho)
        · intro hx E a i r hE ha h2 h3 hi ho hr
          rw [List.mem_append]
          right
          obtain ⟨c1, c2, c3⟩ := P.cell_ex h x h0 h1 E a (by omega) ha h2 h3
          obtain ⟨o1, o2⟩ := hpr.2.2.1 hwr.1
          have hin := (P.owner_iff h i r).1 ho
          rcases hi with hi | ⟨_, hi, rfl⟩
          · omega
          · exact (hr3 r 0).2 ⟨rfl, ho, hr⟩
        · intro _ h4
          left
          apply hnext
          by_contra hc
          push Not at hc
          have he0 : (2 : ℤ) ^ P.ex x = 1 := by rw [hc.1]; rfl
          omega
      · rw [if_neg hwr] at hrp
        by_cases hbig : P.n ≤ x + 2 ^ P.ex x
        · -- there is no right predecessor
          rw [if_pos hbig] at hrp
          rw [hrp, if_pos (by omega)]
          refine ⟨_, _, rfl, hs12, hl12, ?_, ?_⟩
          · intro hx E a i r hE ha h2 h3 hi ho hr
            exfalso
            obtain ⟨c1, c2, c3⟩ := P.cell_ex h x h0 h1 E a (by omega) ha h2 h3
            have hin := (P.owner_iff h i r).1 ho
            rcases hi with hi | ⟨hb1, hi, rfl⟩
            · omega
            · obtain ⟨o1, o2⟩ := hpr.2.2.1 hb1
              apply hwr
              exact ⟨hb1, by omega⟩
          · intro _ h4
            left
            apply hnext
            by_contra hc
            push Not at hc
            have he0 : (2 : ℤ) ^ P.ex x = 1 := by rw [hc.1]; rfl
            omega
        · rw [if_neg hbig] at hrp
          rw [hrp, if_neg (by omega)]
          by_cases hloc : x + 2 ^ P.ex x > P.idxMax
          · rw [if_pos hloc, if_neg (by omega)]
            obtain ⟨q, hq⟩ := P.owner_exists h (x + 2 ^ P.ex x) (by omega) (by omega)
            obtain ⟨t1, t2, t3⟩ := P.ex_spec h (x + 2 ^ P.ex x) (by omega) (by omega)
            have hlt := (t3 (P.ex x + 1) (by omega)).1
              (by rw [show x + 2 ^ P.ex x + P.off = x + P.off + 2 ^ P.ex x by ring]; exact d2)
            obtain ⟨R3, hR3, hR3s, hR3r⟩ : ∃ R3, (ite (P.level (x + 2 ^ P.ex x) ≥ P.lmin)
                ((P.checkPreds fuel (x + 2 ^ P.ex x)).map Prod.fst)
                (some []) : Option (List (ℤ × ℤ))) = some R3 ∧
                (∀ r i, (r, i) ∈ R3 → P.owner i = some r ∧ r ≠ P.c ∧ P.DehierNeed x i) ∧
                (P.idxMax ≤ x → ∀ (E : ℕ) (a i r : ℤ), E ≤ P.lmax - P.lmin → (2 : ℤ) ^ E ∣ a →
                  a < x + P.off → x + 2 ^ P.ex x + P.off < a + 2 ^ E →
                  (i + P.off = a + 2 ^ E ∨ (P.b = 1 ∧ a + 2 ^ E = P.n ∧ i = 0)) →
                  P.owner i = some r → r ≠ P.c → (r, i) ∈ R3) := by
              by_cases hc : P.level (x + 2 ^ P.ex x) ≥ P.lmin
              · rw [if_pos hc]
                obtain ⟨L, nx, hL, hs⟩ := ih (x + 2 ^ P.ex x) (by omega) (by omega)
                  (by push_cast at hf; omega)
                refine ⟨L, by rw [hL]; rfl, ?_, ?_⟩
                · intro r i hm
                  obtain ⟨a1, a2, a3⟩ := hs.sound r i hm
                  exact ⟨a1, a2, P.need_trans h x h0 h1 hex _ i (Or.inr rfl) a3⟩
                · intro hx E a i r hE ha h2 h3 hi ho hr
                  exact hs.right (by omega) E a i r hE ha (by omega) h3 hi ho hr
              · rw [if_neg hc]
                refine ⟨[], rfl, by simp, ?_⟩
                intro hx E a i r hE ha h2 h3 hi ho hr
                exfalso
                have := (P.cell_ex h (x + 2 ^ P.ex x) (by omega) (by omega) E a (by omega) ha
                  (by omega) h3).1
                omega
            rw [hR3, Option.bind_some]
            refine ⟨_, _, rfl, ?_, ?_, ?_, ?_⟩
            · intro r i hm
              rw [List.mem_append, List.mem_append] at hm
              rcases hm with (hm | hm) | hm
              · exact hs12 r i hm
              · obtain ⟨e1, rfl⟩ := (P.mem_insertRaw _ _ _ _ q hq).1 hm
                exact ⟨e1, P.not_self h _ r e1 (Or.inr (by omega)),
                  P.need_direct h x h0 h1 hex _ (Or.inr (Or.inl rfl))⟩
              · exact hR3s r i hm
            · intro hx E a i r hE ha h2 h3 hi ho
              rw [List.mem_append, List.mem_append]
              exact Or.inl (Or.inl (hl12 hx E a i r hE ha h2 h3 hi ho))
            · intro hx E a i r hE ha h2 h3 hi ho hr
              rw [List.mem_append, List.mem_append]
              obtain ⟨c1, c2, c3⟩ := P.cell_ex h x h0 h1 E a (by omega) ha h2 h3
              rcases eq_or_lt_of_le c3 with hc | hc
              · left; right
                have hi' : i = x + 2 ^ P.ex x := by
                  rcases hi with hi | ⟨hb1, hi, rfl⟩
                  · omega
                  · obtain ⟨o1, o2⟩ := hpr.2.2.1 hb1
                    exfalso
                    apply hwr
                    exact ⟨hb1, by omega⟩
                rw [P.mem_insertRaw _ _ _ _ q hq]
                exact ⟨by rw [← hi']; exact ho, hi'⟩
              · right
                exact hR3r hx E a i r hE ha h2 (by omega) hi ho hr
            · intro _ h4
              left
              apply hnext
              by_contra hc
              push Not at hc
              have he0 : (2 : ℤ) ^ P.ex x = 1 := by rw [hc.1]; rfl
              omega
          · rw [if_neg hloc]
            refine ⟨_, _, rfl, hs12, hl12, ?_, ?_⟩
            · intro hx
              omega
            · intro _ _
              right
              exact ⟨P.ex x, by omega, (s3 _ s2).2 (le_refl _), rfl, by omega⟩

/-! ### The loop -/

/-- What one index contributes to the messages sent. -/
def SendSpec (P : Pole) (x r i : ℤ) : Prop :=
  i = x ∧ r ≠ P.c ∧ ∃ s, P.owner s = some r ∧ P.DehierNeed s x

theorem sends_spec (P : Pole) (h : P.Ok) (x : ℤ) (h1 : P.idxMin ≤ x) (h2 : x ≤ P.idxMax) :
    ∃ L R, P.checkLeft x (P.lmax + 1) x = some L ∧ P.checkRight x (P.lmax + 1) x = some R ∧
      ∀ r i, (r, i) ∈ L ++ R ↔ P.SendSpec x r i := by
  have hb := P.bounds h
  have hl := h.hl
  obtain ⟨s1, s2, s3⟩ := P.ex_spec h x (by omega) (by omega)
  obtain ⟨L, hL, hLm⟩ := P.checkLeft_spec h x (P.lmax + 1) x (by omega) (by omega) (by omega)
    (Or.inl rfl)
  obtain ⟨R, hR, hRm⟩ := P.checkRight_spec h (by omega) x (P.lmax + 1) x (by omega) (by omega)
    (by omega) (Or.inl rfl) (le_refl _)
  refine ⟨L, R, hL, hR, ?_⟩
  have hpr := P.pos_range h x (by omega) (by omega)
  intro r i
  rw [List.mem_append, hLm, hRm]
  constructor
  · rintro (⟨rfl, s, E, ho, hs, hE, hd, hlt, hgt⟩ | ⟨rfl, s, E, hsn, ho, hE, hd, hlt, hgt⟩)
    · refine ⟨rfl, P.not_self h s r ho (Or.inl hs), s, ho, E, i + P.off - 2 ^ E, hE,
        dvd_sub hd (dvd_refl _), by omega, by omega, Or.inr (Or.inl (by ring))⟩
    · rcases ho with ⟨ho, hs⟩ | ⟨rfl, hb1, ho, hs⟩
      · exact ⟨rfl, P.not_self h s r ho (Or.inr hs), s, ho, E, i + P.off, hE, hd, by omega,
          by omega, Or.inl rfl⟩
      · obtain ⟨o1, o2⟩ := hpr.2.2.1 hb1
        refine ⟨rfl, P.not_self h _ r ho (Or.inr hs), _, ho, E, P.n - 2 ^ E, hE, ?_, by omega,
          by omega, Or.inr (Or.inr ⟨hb1, by ring, rfl⟩)⟩
        rw [o2]
        exact dvd_sub (pow_dvd_pow 2 (by omega)) (dvd_refl _)
  · rintro ⟨rfl, hr, s, ho, E, a, hE, ha, h3, h4, hi⟩
    have hout := P.outside h s r ho hr
    have hsr := (P.owner_iff h s r).1 ho
    rcases hi with hi | hi | ⟨hb1, hn, rfl⟩
    · right
      exact ⟨rfl, s, E, hsr.2.1, Or.inl ⟨ho, by omega⟩, hE, hi ▸ ha, by omega, by omega⟩
    · left
      exact ⟨rfl, s, E, ho, by omega, hE, by rw [hi]; exact dvd_add ha (dvd_refl _), by omega,
        by omega⟩
    · right
      obtain ⟨o1, o2⟩ := hpr.2.2.1 hb1
      have hE0 := two_pow_pos E
      refine ⟨rfl, P.n - s, E, by omega, Or.inr ⟨rfl, hb1, ?_, by omega⟩, hE, ?_, by omega,
        by omega⟩
      · rw [sub_sub_cancel]; exact ho
      · rw [o1]; simp

theorem dehierLoop_spec (P : Pole) (h : P.Ok) :
    ∀ (fuel : ℕ) (x : ℤ), P.idxMin ≤ x → P.idxMax + 1 - x ≤ fuel →
      ∃ S R, P.dehierLoop fuel x = some (S, R) ∧
        (∀ r i, (r, i) ∈ S → P.idxMin ≤ i ∧ i ≤ P.idxMax ∧ P.SendSpec i r i) ∧
        (∀ z r, x ≤ z → z ≤ P.idxMax → P.SendSpec z r z → (r, z) ∈ S ∨ P.Skipped z) ∧
        (∀ r i, (r, i) ∈ R → P.owner i = some r ∧ r ≠ P.c ∧
          ∃ s, P.idxMin ≤ s ∧ s ≤ P.idxMax ∧ P.DehierNeed s i) ∧
        (∀ z, x ≤ z → z ≤ P.idxMax → (∃ L nx, P.PredsSpec z L nx ∧ ∀ p ∈ L, p ∈ R) ∨
          P.Skipped z) ∧
        (x ≤ P.idxMax → ∃ L nx, P.PredsSpec x L nx ∧ ∀ p ∈ L, p ∈ R) := by
  have hb := P.bounds h
  intro fuel
  induction fuel with
  | zero =>
    intro x h1 h2
    push_cast at h2
    refine ⟨[], [], by rw [dehierLoop, if_neg (by omega)], by simp, ?_, by simp, ?_, ?_⟩
    · intro z r h3 h4; omega
    · intro z h3 h4; omega
    · intro h3; omega
  | succ fuel ih =>
    intro x h1 h2
    by_cases hx : x ≤ P.idxMax
    · obtain ⟨L, R, hL, hR, hLR⟩ := P.sends_spec h x h1 hx
      obtain ⟨Q, nx, hQ, hQs⟩ := P.checkPreds_spec h (by omega) (P.lmax + 1) x (by omega) (by omega)
        (by have := P.level_le x; push_cast; omega)
      have hst := hQs.next h1 hx
      have hlt := P.step_lt hst
      obtain ⟨S', R', e0, e1, e2, e3, e4, -⟩ := ih nx (by omega) (by push_cast at h2; omega)
      refine ⟨L ++ R ++ S', Q ++ R', ?_, ?_, ?_, ?_, ?_, ?_⟩
      · rw [dehierLoop, if_pos hx, hL, hR, hQ]
        simp only [Option.bind_eq_bind, Option.bind_some]
        rw [e0]
        rfl
      · intro r i hm
        rw [List.mem_append] at hm
        rcases hm with hm | hm
        · have := (hLR r i).1 hm
          obtain rfl := this.1
          exact ⟨h1, hx, this⟩
        · exact e1 r i hm
      · intro z r hz1 hz2 hz
        rw [List.mem_append]
        rcases lt_or_ge z nx with hzn | hzn
        · rcases eq_or_lt_of_le hz1 with rfl | hz1
          · exact Or.inl (Or.inl ((hLR r x).2 hz))
          · exact Or.inr (P.skipped_or h1 hst z hz1 hzn)
        · rcases e2 z r hzn hz2 hz with hm | hm
          · exact Or.inl (Or.inr hm)
          · exact Or.inr hm
      · intro r i hm
        rw [List.mem_append] at hm
        rcases hm with hm | hm
        · obtain ⟨a1, a2, a3⟩ := hQs.sound r i hm
          exact ⟨a1, a2, x, h1, hx, a3⟩
        · exact e3 r i hm
      · intro z hz1 hz2
        rcases lt_or_ge z nx with hzn | hzn
        · rcases eq_or_lt_of_le hz1 with rfl | hz1
          · exact Or.inl ⟨Q, nx, hQs, fun p hp => by simp [hp]⟩
          · exact Or.inr (P.skipped_or h1 hst z hz1 hzn)
        · rcases e4 z hzn hz2 with ⟨L', nx', a1, a2⟩ | hm
          · exact Or.inl ⟨L', nx', a1, fun p hp => by simp [a2 p hp]⟩
          · exact Or.inr hm
      · intro _
        exact ⟨Q, nx, hQs, fun p hp => by simp [hp]⟩
    · refine ⟨[], [], by rw [dehierLoop, if_neg hx], by simp, ?_, by simp, ?_, ?_⟩
      · intro z r h3 h4; omega
      · intro z h3 h4; omega
      · intro h3; omega

/-- What `exchangeData1dDehierarchization` sends and receives. -/
theorem exchangeDehier_spec (P : Pole) (h : P.Ok) :
    ∃ S R, P.exchangeDehier = some (S, R) ∧
      (∀ r i, (r, i) ∈ S ↔ P.idxMin ≤ i ∧ i ≤ P.idxMax ∧ r ≠ P.c ∧
        ∃ s, P.owner s = some r ∧ P.DehierNeed s i) ∧
      (∀ r i, (r, i) ∈ R ↔ P.owner i = some r ∧ r ≠ P.c ∧
        ∃ s, P.idxMin ≤ s ∧ s ≤ P.idxMax ∧ P.DehierNeed s i) := by
  have hb := P.bounds h
  have hl := h.hl
  obtain ⟨S, R, e0, e1, e2, e3, e4, e5⟩ := P.dehierLoop_spec h P.fuel P.idxMin (le_refl _)
    (by unfold fuel; omega)
  refine ⟨S, R, e0, ?_, ?_⟩
  · intro r i
    constructor
    · intro hm
      obtain ⟨a1, a2, a3⟩ := e1 r i hm
      exact ⟨a1, a2, a3.2⟩
    · rintro ⟨a1, a2, hr, s, ho, hn⟩
      rcases e2 i r a1 a2 ⟨rfl, hr, s, ho, hn⟩ with hm | hm
      · exact hm
      · -- skipped points are only needed locally
        exfalso
        have hout := P.outside h s r ho hr
        obtain ⟨E, a, hE, ha, h3, h4, hi⟩ := hn
        have hpos : (2 : ℤ) ^ E ∣ i + P.off := by
          rcases hi with hi | hi | ⟨hb1, hn, rfl⟩
          · rw [hi]; exact ha
          · rw [hi]; exact dvd_add ha (dvd_refl _)
          · have := ((P.pos_range h 0 (by omega) (by omega)).2.2.1 hb1).1
            rw [this]; simp
        have hloc := P.skipped_local hm E hpos
        rcases hi with hi | hi | ⟨hb1, hn, rfl⟩ <;> omega
  · intro r i
    constructor
    · exact e3 r i
    · rintro ⟨ho, hr, s, hs1, hs2, E, a, hE, ha, h3, h4, hi⟩
      have hout := P.outside h i r ho hr
      have hir := (P.owner_iff h i r).1 ho
      by_cases hleft : i + P.off = a
      · obtain ⟨L, nx, hsp, hsub⟩ := e5 (by omega)
        exact hsub _ (hsp.left (le_refl _) E a i r hE ha (by omega) (by omega) hleft ho)
      · rcases e4 P.idxMax (by omega) (le_refl _) with ⟨L, nx, hsp, hsub⟩ | hsk
        · have hi' : i + P.off = a + 2 ^ E ∨ (P.b = 1 ∧ a + 2 ^ E = P.n ∧ i = 0) := by
            rcases hi with hi | hi | hi
            · exact absurd hi hleft
            · exact Or.inl hi
            · exact Or.inr hi
          refine hsub _ (hsp.right (le_refl _) E a i r hE ha (by omega) ?_ hi' ho hr)
          rcases hi' with hi' | ⟨hb1, hn, rfl⟩
          · omega
          · have := ((P.pos_range h 0 (by omega) (by omega)).2.2.1 hb1).1
            omega
        · exfalso
          have := P.skipped_local hsk 0 (by simp)
          simp at this

end Pole
end Verif
