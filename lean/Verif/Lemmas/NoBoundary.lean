import Verif.Lemmas.Kernels
import Verif.Props.Levels1d

/-!
# Helper lemmas for the kernels on poles without boundary points
-/

namespace Verif

variable {K : Type} [Field K]

/-- left neighbour of `q` at distance `w` as the code reads it -/
def leftOf (v : ℕ → K) (w q : ℕ) : K := if w < q then v (q - w) else 0

/-- right neighbour of `q` at distance `w` as the code reads it -/
def rightOf (v : ℕ → K) (g w q : ℕ) : K := if q + w < g then v (q + w) else 0

theorem noBoundaryLoop_eq (f : K → K → K → K) {g stop w : ℕ} (hw : 0 < w) (fuel : ℕ) (d : Buf K)
    (hstop : stop ≤ d.len) (hg : g ≤ d.len) (i : ℕ) (hf0 : 0 < fuel) (hfuel : stop < fuel + i) :
    noBoundaryLoop f g stop w fuel d i = some ⟨d.len, fun q =>
      if i ≤ q ∧ q < stop ∧ (q - i) % (2 * w) = 0 then
        f (leftOf d.val w q) (rightOf d.val g w q) (d.val q) else d.val q⟩ := by
  induction fuel generalizing d i with
  | zero => omega
  | succ fuel ih =>
    by_cases hi : i < stop
    · have hleft : (if (i : ℤ) - w > 0 then d.getInt? ((i : ℤ) - w) else some 0) =
          some (leftOf d.val w i) := by
        unfold leftOf Buf.getInt? Buf.get?
        by_cases h : w < i
        · rw [if_pos (by omega), if_pos (by omega), if_pos (by omega), if_pos h]
          congr 2
          omega
        · rw [if_neg (by omega), if_neg h]
      have hright : (if i + w < g then d.get? (i + w) else some 0) =
          some (rightOf d.val g w i) := by
        unfold rightOf Buf.get?
        by_cases h : i + w < g
        · rw [if_pos h, if_pos (by omega), if_pos h]
        · rw [if_neg h, if_neg h]
      rw [noBoundaryLoop, if_pos hi, hleft, hright]
      simp only [Buf.get?, Buf.set?, show i < d.len by omega, if_true, Option.bind_eq_bind,
        Option.bind_some]
      rw [ih _ (by exact hstop) (by exact hg) _ (by omega) (by omega)]
      congr 2
      funext q
      rw [mul_comm w 2]
      by_cases h0 : q = i
      · subst h0
        rw [if_neg (by omega), if_pos ⟨le_refl _, hi, by simp⟩]
        simp only [Function.update_self]
      · by_cases h1 : i + 2 * w ≤ q ∧ q < stop ∧ (q - (i + 2 * w)) % (2 * w) = 0
        · have e : q - i = q - (i + 2 * w) + 2 * w := by omega
          rw [if_pos h1, if_pos (by
            refine ⟨by omega, by omega, ?_⟩
            rw [e, Nat.add_mod_right]
            exact h1.2.2)]
          simp only [leftOf, rightOf]
          rw [Function.update_of_ne (by omega), Function.update_of_ne (by omega),
            Function.update_of_ne (by omega)]
        · rw [if_neg h1, if_neg (by
            rintro ⟨a1, a2, a3⟩
            apply h1
            have a4 : i + 2 * w ≤ q := by
              by_contra hc
              rw [Nat.mod_eq_of_lt (by omega)] at a3
              omega
            refine ⟨a4, by omega, ?_⟩
            have e : q - i = q - (i + 2 * w) + 2 * w := by omega
            rw [e, Nat.add_mod_right] at a3
            exact a3)]
          simp only
          rw [Function.update_of_ne h0]
    · obtain ⟨len, val⟩ := d
      rw [noBoundaryLoop, if_neg hi]
      congr 2
      funext q
      rw [if_neg (by omega)]

/-- One level step without boundary, updating only the points from `first` to `stop`. -/
def nbStep (first stop g w : ℕ) (f : K → K → K → K) (v : ℕ → K) (q : ℕ) : K :=
  if first ≤ q ∧ q < stop ∧ (q + 1) % (2 * w) = w then
    f (leftOf v w q) (rightOf v g w q) (v q) else v q

theorem pointLevel_iff_mod {lmax l x : ℕ} (hl : 1 ≤ l) (hlm : l ≤ lmax) :
    PointLevel lmax x l ↔ x % (2 * 2 ^ (lmax - l)) = 2 ^ (lmax - l) := by
  unfold PointLevel
  have hw : 0 < 2 ^ (lmax - l) := by positivity
  constructor
  · rintro (⟨h, -⟩ | ⟨-, -, m, rfl⟩)
    · omega
    · rw [show (2 * m + 1) * 2 ^ (lmax - l) = 2 ^ (lmax - l) + 2 * 2 ^ (lmax - l) * m by ring,
        Nat.add_mul_mod_self_left, Nat.mod_eq_of_lt (by omega)]
  · intro h
    refine Or.inr ⟨hl, hlm, x / (2 * 2 ^ (lmax - l)), ?_⟩
    have := Nat.div_add_mod x (2 * 2 ^ (lmax - l))
    rw [h] at this
    calc x = 2 * 2 ^ (lmax - l) * (x / (2 * 2 ^ (lmax - l))) + 2 ^ (lmax - l) := this.symm
      _ = _ := by ring

theorem mod_shift {w i q : ℕ} (hi : (i + 1) % (2 * w) = w) (hw : 0 < w) (h : i ≤ q) :
    (q - i) % (2 * w) = 0 ↔ (q + 1) % (2 * w) = w := by
  have e : q + 1 = (q - i) + (i + 1) := by omega
  rw [e, Nat.add_mod, hi]
  have hlt : (q - i) % (2 * w) < 2 * w := Nat.mod_lt _ (by omega)
  constructor
  · intro h
    rw [h, zero_add, Nat.mod_eq_of_lt (by omega)]
  · intro h
    by_contra hne
    rcases Nat.lt_or_ge ((q - i) % (2 * w) + w) (2 * w) with hl | hl
    · rw [Nat.mod_eq_of_lt hl] at h
      omega
    · rw [Nat.mod_eq_sub_mod hl, Nat.mod_eq_of_lt (by omega)] at h
      omega

theorem hierNoBoundaryStep_eq (f : K → K → K → K) {lmax l first size : ℕ} (hlm : lmax ≤ 29) (h1 : 1 ≤ l)
    (hl : l ≤ lmax) (d : Buf K) (hlen : d.len = 2 ^ lmax - 1)
    (hfs : first + size ≤ 2 ^ lmax - 1) :
    hierNoBoundaryStep f lmax (2 ^ lmax - 1) first size d l = some ⟨d.len,
      nbStep first (first + size) (2 ^ lmax - 1) (2 ^ (lmax - l))
        f d.val⟩ := by
  have hw : 0 < 2 ^ (lmax - l) := by positivity
  have hnod : nodal lmax 0 = 2 ^ lmax - 1 := rfl
  have hlev : ∀ i < 2 ^ lmax - 1, (getLevel lmax 0 i == (l : ℤ)) = true ↔
      (i + 1) % (2 * 2 ^ (lmax - l)) = 2 ^ (lmax - l) := by
    intro i hi
    rw [beq_iff_eq, getLevel_eq_iff (by omega) (by rw [hnod]; exact hi), pointLevel_iff_mod h1 hl]
    rfl
  unfold hierNoBoundaryStep
  rw [powerOfTwo?_eq (by omega)]
  cases hfind : firstIndexOfLevel lmax first size l with
  | none =>
    obtain ⟨len, val⟩ := d
    simp only
    congr 2
    funext q
    unfold firstIndexOfLevel at hfind
    rw [List.find?_eq_none] at hfind
    unfold nbStep
    rw [if_neg]
    rintro ⟨a1, a2, a3⟩
    refine hfind q ?_ ((hlev q (by omega)).2 a3)
    rw [List.mem_map]
    exact ⟨q - first, List.mem_range.2 (by omega), by omega⟩
  | some i =>
    simp only
    unfold firstIndexOfLevel at hfind
    obtain ⟨hp, as, bs, hsplit, hbefore⟩ := List.find?_eq_some_iff_append.1 hfind
    have hmem : i ∈ (List.range size).map (first + ·) := by rw [hsplit]; simp
    rw [List.mem_map] at hmem
    obtain ⟨k, hk, rfl⟩ := hmem
    rw [List.mem_range] at hk
    rw [hlev _ (by omega)] at hp
    rw [noBoundaryLoop_eq _ hw _ d (by omega) (by omega) _ (by omega) (by omega)]
    congr 2
    funext q
    unfold nbStep
    refine if_congr ?_ rfl rfl
    constructor
    · rintro ⟨a1, a2, a3⟩
      exact ⟨by omega, a2, (mod_shift hp hw a1).1 a3⟩
    · rintro ⟨a1, a2, a3⟩
      have hge : first + k ≤ q := by
        by_contra hc
        have hsorted : ((List.range size).map (first + ·)).Pairwise (· < ·) := by
          rw [List.pairwise_map]
          exact List.pairwise_lt_range.imp fun h => by omega
        rw [hsplit, List.pairwise_append] at hsorted
        have hq : q ∈ (List.range size).map (first + ·) :=
          List.mem_map.2 ⟨q - first, List.mem_range.2 (by omega), by omega⟩
        rw [hsplit, List.mem_append, List.mem_cons] at hq
        rcases hq with hq | hq | hq
        · have h1 := hbefore q hq
          have h2 := (hlev q (by omega)).2 a3
          rw [h2] at h1
          simp at h1
        · omega
        · have := (List.pairwise_cons.1 hsorted.2.1).1 q hq
          omega
      exact ⟨hge, a2, (mod_shift hp hw hge).2 a3⟩

/-- The levels from `lmax` down to 1 as exponents `0, …, lmax - 1`. -/
theorem hierNoBoundaryWith_eq (f : K → K → K → K) {lmax first size : ℕ} (hlm : lmax ≤ 29) (d : Buf K)
    (hlen : d.len = 2 ^ lmax - 1) (hfs : first + size ≤ 2 ^ lmax - 1) :
    hierNoBoundaryWith f lmax (2 ^ lmax - 1) first size d = some ⟨d.len,
      (List.range lmax).foldl (fun v e => nbStep first (first + size) (2 ^ lmax - 1) (2 ^ e)
        f v) d.val⟩ := by
  unfold hierNoBoundaryWith
  have : ∀ (es : List ℕ), (∀ e ∈ es, e < lmax) → ∀ d : Buf K, d.len = 2 ^ lmax - 1 →
      (es.map (lmax - ·)).foldlM (hierNoBoundaryStep f lmax (2 ^ lmax - 1) first size) d =
        some ⟨d.len, es.foldl (fun v e => nbStep first (first + size) (2 ^ lmax - 1) (2 ^ e)
        f v) d.val⟩ := by
    intro es
    induction es with
    | nil => intro _ d _; rfl
    | cons e es ih =>
      intro hes d hlen
      have he := hes e (by simp)
      rw [List.map_cons, List.foldlM_cons,
        hierNoBoundaryStep_eq f hlm (by omega) (by omega) d hlen hfs]
      simp only [Option.bind_eq_bind, Option.bind_some]
      rw [show lmax - (lmax - e) = e by omega]
      exact ih (fun e h => hes e (by simp [h])) ⟨d.len, _⟩ hlen
  exact this _ (by simp) d hlen

theorem hierNoBoundary_eq {lmax first size : ℕ} (hlm : lmax ≤ 29) (d : Buf K)
    (hlen : d.len = 2 ^ lmax - 1) (hfs : first + size ≤ 2 ^ lmax - 1) :
    hierNoBoundary lmax (2 ^ lmax - 1) first size d = some ⟨d.len,
      (List.range lmax).foldl (fun v e => nbStep first (first + size) (2 ^ lmax - 1) (2 ^ e)
        (fun left right v => v - 2⁻¹ * right + -2⁻¹ * left) v) d.val⟩ :=
  hierNoBoundaryWith_eq _ hlm d hlen hfs

theorem dehierNoBoundaryWith_eq (f : K → K → K → K) {lmax : ℕ} (hlm : lmax ≤ 29) (hl1 : 1 ≤ lmax) (d : Buf K)
    (hlen : d.len = 2 ^ lmax - 1) :
    dehierNoBoundaryWith f lmax (2 ^ lmax - 1) d = some ⟨d.len,
      (List.range (lmax - 1)).reverse.foldl (fun v e => nbStep 0 (2 ^ lmax - 1) (2 ^ lmax - 1)
        (2 ^ e) f v) d.val⟩ := by
  unfold dehierNoBoundaryWith
  have hrev : (List.range (lmax - 1)).map (· + 2) =
      (List.range (lmax - 1)).reverse.map (lmax - ·) := by
    apply List.ext_getElem
    · simp
    · intro i h1 h2
      simp only [List.length_map, List.length_range] at h1
      simp only [List.getElem_map, List.getElem_range, List.getElem_reverse, List.length_range]
      omega
  have : ∀ (es : List ℕ), (∀ e ∈ es, e + 1 < lmax) → ∀ d : Buf K, d.len = 2 ^ lmax - 1 →
      (es.map (lmax - ·)).foldlM (fun d l => (powerOfTwo? (lmax - l)).bind fun po =>
        noBoundaryLoop f (2 ^ lmax - 1)
          (2 ^ lmax - 1) po (2 ^ lmax - 1 + 1) d (po - 1)) d =
        some ⟨d.len, es.foldl (fun v e => nbStep 0 (2 ^ lmax - 1) (2 ^ lmax - 1)
        (2 ^ e) f v) d.val⟩ := by
    intro es
    induction es with
    | nil => intro _ d _; rfl
    | cons e es ih =>
      intro hes d hlen
      have he := hes e (by simp)
      have hw : 0 < 2 ^ e := by positivity
      rw [List.map_cons, List.foldlM_cons, show lmax - (lmax - e) = e by omega,
        powerOfTwo?_eq (by omega)]
      simp only [Option.bind_eq_bind, Option.bind_some]
      rw [noBoundaryLoop_eq _ hw _ d (by omega) (by omega) _ (by omega) (by omega)]
      simp only [Option.bind_some]
      have hfun : (fun q => if 2 ^ e - 1 ≤ q ∧ q < 2 ^ lmax - 1 ∧ (q - (2 ^ e - 1)) % (2 * 2 ^ e) = 0
          then f (leftOf d.val (2 ^ e) q) (rightOf d.val (2 ^ lmax - 1) (2 ^ e) q) (d.val q)
          else d.val q) = nbStep 0 (2 ^ lmax - 1) (2 ^ lmax - 1)
        (2 ^ e) f d.val := by
        funext q
        unfold nbStep
        have hp : (2 ^ e - 1 + 1) % (2 * 2 ^ e) = 2 ^ e := by
          rw [Nat.sub_add_cancel hw, Nat.mod_eq_of_lt (by omega)]
        refine if_congr ?_ rfl rfl
        constructor
        · rintro ⟨a1, a2, a3⟩
          exact ⟨by omega, a2, (mod_shift hp hw a1).1 a3⟩
        · rintro ⟨a1, a2, a3⟩
          have hge : 2 ^ e - 1 ≤ q := by
            have := Nat.mod_le (q + 1) (2 * 2 ^ e)
            omega
          exact ⟨hge, a2, (mod_shift hp hw hge).2 a3⟩
      rw [hfun]
      exact ih (fun e h => hes e (by simp [h])) ⟨d.len, _⟩ hlen
  rw [hrev]
  exact this _ (by simp; omega) d hlen

theorem dehierNoBoundary_eq {lmax : ℕ} (hlm : lmax ≤ 29) (hl1 : 1 ≤ lmax) (d : Buf K)
    (hlen : d.len = 2 ^ lmax - 1) :
    dehierNoBoundary lmax (2 ^ lmax - 1) d = some ⟨d.len,
      (List.range (lmax - 1)).reverse.foldl (fun v e => nbStep 0 (2 ^ lmax - 1) (2 ^ lmax - 1)
        (2 ^ e) (fun left right v => v + 2⁻¹ * right + 2⁻¹ * left) v) d.val⟩ :=
  dehierNoBoundaryWith_eq _ hlm hl1 d hlen

/-! ### Reduction to the kernels with boundary -/

/-- The pole with zero boundary values. -/
def pad (g : ℕ) (v : ℕ → K) (p : ℕ) : K := if p = 0 ∨ g < p then 0 else v (p - 1)

theorem pad_nbStep {lmax e : ℕ} (he : e < lmax) (f : K → K → K → K) (v : ℕ → K) :
    pad (2 ^ lmax - 1) (nbStep 0 (2 ^ lmax - 1) (2 ^ lmax - 1) (2 ^ e) f v) =
      pass (Odds (2 ^ lmax) (2 ^ e)) (2 ^ e) f (pad (2 ^ lmax - 1) v) := by
  have hw : 0 < 2 ^ e := by positivity
  have hN : 2 ^ e < 2 ^ lmax := two_pow_lt he
  have hsp := two_pow_split he
  funext p
  unfold pass
  by_cases hp : p = 0 ∨ 2 ^ lmax - 1 < p
  · have hno : ¬ Odds (2 ^ lmax) (2 ^ e) p := by
      unfold Odds
      rcases hp with rfl | hp
      · rw [Nat.zero_mod]; omega
      · omega
    rw [if_neg hno]
    unfold pad
    rw [if_pos hp, if_pos hp]
  · obtain ⟨q, rfl⟩ : ∃ q, p = q + 1 := ⟨p - 1, by omega⟩
    have hq : q < 2 ^ lmax - 1 := by omega
    have hpad : ∀ u : ℕ → K, pad (2 ^ lmax - 1) u (q + 1) = u q := by
      intro u
      unfold pad
      rw [if_neg hp, Nat.add_sub_cancel]
    rw [hpad, hpad]
    unfold nbStep
    by_cases hm : (q + 1) % (2 * 2 ^ e) = 2 ^ e
    · rw [if_pos ⟨by omega, hq, hm⟩,
        if_pos (show Odds (2 ^ lmax) (2 ^ e) (q + 1) from ⟨hm, by omega⟩)]
      have hdm := Nat.div_add_mod (q + 1) (2 * 2 ^ e)
      rw [hm] at hdm
      congr 1
      · -- left neighbour
        unfold leftOf pad
        rcases Nat.eq_zero_or_pos ((q + 1) / (2 * 2 ^ e)) with hz | hz
        · rw [hz, mul_zero, zero_add] at hdm
          rw [if_neg (by omega), if_pos (Or.inl (by omega))]
        · have : 2 * 2 ^ e ≤ 2 * 2 ^ e * ((q + 1) / (2 * 2 ^ e)) :=
            Nat.le_mul_of_pos_right _ hz
          rw [if_pos (by omega), if_neg (by omega)]
          congr 1
          omega
      · unfold rightOf pad
        by_cases hr : q + 2 ^ e < 2 ^ lmax - 1
        · rw [if_pos hr, if_neg (by omega)]
          congr 1
          omega
        · rw [if_neg hr, if_pos (Or.inr (by omega))]
    · rw [if_neg (by tauto), if_neg (fun h : Odds (2 ^ lmax) (2 ^ e) (q + 1) => hm h.1)]

/-- Serial hierarchization without boundary is hierarchization with zero boundary values. -/
theorem pad_foldl {lmax : ℕ} (f : K → K → K → K) (es : List ℕ) (hes : ∀ e ∈ es, e < lmax)
    (v : ℕ → K) :
    pad (2 ^ lmax - 1) (es.foldl (fun v e => nbStep 0 (2 ^ lmax - 1) (2 ^ lmax - 1) (2 ^ e) f v) v) =
      es.foldl (fun v e => pass (Odds (2 ^ lmax) (2 ^ e)) (2 ^ e) f v) (pad (2 ^ lmax - 1) v) := by
  induction es generalizing v with
  | nil => rfl
  | cons e es ih =>
    rw [List.foldl_cons, List.foldl_cons, ih (fun e h => hes e (by simp [h])),
      pad_nbStep (hes e (by simp))]

/-- Closed form of the hat hierarchization. -/
theorem hat_foldl_closed (lmax k : ℕ) (hk : k ≤ lmax) (v : ℕ → K) :
    (∀ q, (2 ^ k ∣ q ∨ 2 ^ lmax ≤ q) →
      (List.range k).foldl (hatStep (2 ^ lmax)) v q = v q) ∧
    (∀ e < k, ∀ q < 2 ^ lmax, q % (2 * 2 ^ e) = 2 ^ e →
      (List.range k).foldl (hatStep (2 ^ lmax)) v q =
        v q - 2⁻¹ * v (q - 2 ^ e) - 2⁻¹ * v (q + 2 ^ e)) := by
  induction k with
  | zero => simp
  | succ k ih =>
    obtain ⟨ih1, ih2⟩ := ih (by omega)
    rw [List.range_succ, List.foldl_append]
    simp only [List.foldl_cons, List.foldl_nil]
    have hw : 0 < 2 ^ k := by positivity
    constructor
    · intro q hq
      have hno : ¬ Odds (2 ^ lmax) (2 ^ k) q := by
        rintro ⟨h1, h2⟩
        rcases hq with hq | hq
        · rw [pow_succ'] at hq
          rw [Nat.mod_eq_zero_of_dvd hq] at h1
          omega
        · omega
      have : hatStep (2 ^ lmax) ((List.range k).foldl (hatStep (2 ^ lmax)) v) k q =
          (List.range k).foldl (hatStep (2 ^ lmax)) v q := if_neg hno
      rw [this]
      apply ih1
      rcases hq with hq | hq
      · exact Or.inl (dvd_trans (pow_dvd_pow 2 (by omega)) hq)
      · exact Or.inr hq
    · intro e he q hq hm
      rcases Nat.lt_or_ge e k with hek | hek
      · have hno : ¬ Odds (2 ^ lmax) (2 ^ k) q := by
          rintro ⟨h1, h2⟩
          have hd : 2 ^ k ∣ q := by
            have := Nat.div_add_mod q (2 * 2 ^ k)
            rw [h1] at this
            rw [← this]
            exact Dvd.dvd.add (Dvd.dvd.mul_right (Dvd.intro_left _ rfl) _) (dvd_refl _)
          have hd2 : 2 * 2 ^ e ∣ q := by
            rw [← pow_succ']
            exact dvd_trans (pow_dvd_pow 2 (by omega)) hd
          rw [Nat.mod_eq_zero_of_dvd hd2] at hm
          have : 0 < 2 ^ e := by positivity
          omega
        have : hatStep (2 ^ lmax) ((List.range k).foldl (hatStep (2 ^ lmax)) v) k q =
            (List.range k).foldl (hatStep (2 ^ lmax)) v q := if_neg hno
        rw [this]
        exact ih2 e hek q hq hm
      · obtain rfl : e = k := by omega
        have : hatStep (2 ^ lmax) ((List.range e).foldl (hatStep (2 ^ lmax)) v) e q =
            (List.range e).foldl (hatStep (2 ^ lmax)) v q -
              2⁻¹ * (List.range e).foldl (hatStep (2 ^ lmax)) v (q - 2 ^ e) -
              2⁻¹ * (List.range e).foldl (hatStep (2 ^ lmax)) v (q + 2 ^ e) :=
          if_pos (show Odds (2 ^ lmax) (2 ^ e) q from ⟨hm, hq⟩)
        have hdm := Nat.div_add_mod q (2 * 2 ^ e)
        rw [hm] at hdm
        have d1 : 2 ^ e ∣ q := by
          rw [← hdm]
          exact Dvd.dvd.add (Dvd.dvd.mul_right (Dvd.intro_left _ rfl) _) (dvd_refl _)
        rw [this, ih1 q (Or.inl d1), ih1 _ (Or.inl (Nat.dvd_sub d1 (dvd_refl _))),
          ih1 _ (Or.inl (Dvd.dvd.add d1 (dvd_refl _)))]

end Verif
