import Verif.Lemmas.Poles

/-!
# Poles of a full grid with the mass conserving kernels
-/

namespace Verif

variable {K : Type} [Field K]

/-- The bases other than hat functions. -/
def Basis.massConserving : Basis → Bool
  | .hat => false
  | .hatPeriodic => false
  | _ => true

/-- Bases that treat the ends as periodic. -/
def Basis.periodic : Basis → Bool
  | .hatPeriodic | .fullWeightingPeriodic | .biorthogonalPeriodic => true
  | _ => false

/-- One level of the hierarchization with a basis, as dispatched by the code. -/
def massStep : Basis → ℕ → (ℕ → K) → ℕ → ℕ → K
  | .biorthogonalPeriodic => bioStep true
  | .fullWeightingPeriodic => fullStep true
  | _ => fullStep false

/-- One level of the dehierarchization with a basis, as dispatched by the code. -/
def massUnstep : Basis → ℕ → (ℕ → K) → ℕ → ℕ → K
  | .biorthogonalPeriodic => unbioStep true
  | .fullWeightingPeriodic => unfullStep true
  | _ => unfullStep false

theorem massKernels {β : Basis} (hβ : β.massConserving) {lmax : ℕ} (hl : lmax ≤ 28) (lmin : ℕ)
    (d : Buf K) (hlen : d.len = 2 ^ lmax + 1) :
    hierKernel β lmax lmin d =
      some ⟨d.len, (List.range (lmax - lmin)).foldl (massStep β (2 ^ lmax)) d.val⟩ ∧
    dehierKernel β lmax lmin d =
      some ⟨d.len, (List.range (lmax - lmin)).reverse.foldl (massUnstep β (2 ^ lmax)) d.val⟩ := by
  have hF := fun p => upLevels_eq (K := K) (lmax := lmax) hl
    (fun e he d hd => hierFullStep_eq p he d hd) lmin d hlen
  have hB := fun p => upLevels_eq (K := K) (lmax := lmax) hl
    (fun e he d hd => hierBioStep_eq p he d hd) lmin d hlen
  have gF := fun p => downLevels_eq (K := K) (lmax := lmax) hl
    (fun e he d hd => dehierFullStep_eq p he d hd) lmin d hlen
  have gB := fun p => downLevels_eq (K := K) (lmax := lmax) hl
    (fun e he d hd => dehierBioStep_eq p he d hd) lmin d hlen
  cases β
  · exact absurd hβ (by decide)
  · exact absurd hβ (by decide)
  · exact ⟨hF false, gF false⟩
  · exact ⟨hF true, gF true⟩
  · exact ⟨hF false, gF false⟩
  · exact ⟨hB true, gB true⟩

theorem massPole_eq {β : Basis} (hβ : β.massConserving) {b lmax lmin : ℕ} (hb : b = 1 ∨ b = 2)
    (hl : lmin < lmax) (hm : lmax ≤ 28) (gstart : ℕ) (remote : List (ℕ × K)) (junk : ℕ → K)
    (loc : Buf K) (hr : ∀ r ∈ remote, r.1 < poleLength lmax b)
    (hloc : gstart + loc.len ≤ poleLength lmax b) :
    hierPole β b lmax lmin gstart remote junk loc = some ⟨loc.len, fun i =>
      (List.range (lmax - lmin)).foldl (massStep β (2 ^ lmax))
        (nodalAt b lmax (filled gstart remote junk loc)) (gstart + i)⟩ ∧
    dehierPole β b lmax lmin gstart remote junk loc = some ⟨loc.len, fun i =>
      (List.range (lmax - lmin)).reverse.foldl (massUnstep β (2 ^ lmax))
        (nodalAt b lmax (filled gstart remote junk loc)) (gstart + i)⟩ := by
  have hb0 : b > 0 := by omega
  unfold hierPole dehierPole
  simp only [nodalAt_pos hb0]
  simp only [if_neg (show ¬ lmin ≥ lmax by omega), if_pos hb0]
  exact ⟨withBoundaryPole_eq hb _
      (fun v => (List.range (lmax - lmin)).foldl (massStep β (2 ^ lmax)) v)
      (fun d hd => (massKernels hβ hm lmin d hd).1) gstart remote junk loc hr hloc,
    withBoundaryPole_eq hb _
      (fun v => (List.range (lmax - lmin)).reverse.foldl (massUnstep β (2 ^ lmax)) v)
      (fun d hd => (massKernels hβ hm lmin d hd).2) gstart remote junk loc hr hloc⟩

section CharZero

variable [CharZero K]

theorem mass_inverse (β : Basis) {lmax e : ℕ} (h : e < lmax) (v : ℕ → K)
    (hp : β.periodic = true → v 0 = v (2 ^ lmax)) :
    massUnstep β (2 ^ lmax) (massStep β (2 ^ lmax) v e) e = v ∧
    massStep β (2 ^ lmax) (massUnstep β (2 ^ lmax) v e) e = v := by
  cases β
  case fullWeightingPeriodic => exact ⟨unfull_full true h v hp, full_unfull true h v hp⟩
  case biorthogonalPeriodic => exact ⟨unbio_bio true h v hp, bio_unbio true h v hp⟩
  all_goals exact ⟨unfull_full false h v (by simp), full_unfull false h v (by simp)⟩

end CharZero

theorem mass_ends {β : Basis} (hβ : β.massConserving) (hp : β.periodic) {lmax : ℕ} (e : ℕ)
    (v : ℕ → K) :
    massStep β (2 ^ lmax) v e 0 = massStep β (2 ^ lmax) v e (2 ^ lmax) ∧
    massUnstep β (2 ^ lmax) v e 0 = massUnstep β (2 ^ lmax) v e (2 ^ lmax) := by
  obtain ⟨h1, h2, h3, h4⟩ := periodic_ends (K := K) (lmax := lmax) (e := e) v
  cases β
  case fullWeightingPeriodic => exact ⟨h1, h2⟩
  case biorthogonalPeriodic => exact ⟨h3, h4⟩
  case hatPeriodic => exact absurd hβ (by decide)
  all_goals exact absurd hp (by decide)

/-- `s` only looks at positions up to `N`. -/
def LocalTo (N : ℕ) (s : (ℕ → K) → ℕ → K) : Prop :=
  ∀ u v : ℕ → K, (∀ p ≤ N, u p = v p) → ∀ p ≤ N, s u p = s v p

omit [Field K] in
theorem LocalTo.comp {N : ℕ} {s t : (ℕ → K) → ℕ → K} (hs : LocalTo N s) (ht : LocalTo N t) :
    LocalTo N (fun v => s (t v)) := fun u v h => hs _ _ (ht u v h)

omit [Field K] in
theorem localTo_pass {P : ℕ → Prop} [DecidablePred P] {N w : ℕ} (f : K → K → K → K)
    (hP : ∀ q, P q → q + w ≤ N) : LocalTo N (pass P w f) := by
  intro u v h p hp
  unfold pass
  by_cases hq : P p
  · rw [if_pos hq, if_pos hq, h _ hp, h _ (hP p hq), h (p - w) (by omega)]
  · rw [if_neg hq, if_neg hq, h _ hp]

omit [Field K] in
theorem localTo_ends (periodic : Bool) (f : K → K → K) (fp : K → K → K → K → K) {N w : ℕ}
    (hw : w ≤ N) : LocalTo N (passEnds periodic f fp N w) := by
  intro u v h p hp
  unfold passEnds
  rw [h 0 (by omega), h N (by omega), h w hw, h (N - w) (by omega), h p hp]

theorem step_room {lmax e : ℕ} (he : e < lmax) (q : ℕ) (hq : q < 2 ^ lmax) (hd : 2 ^ e ∣ q) :
    q + 2 ^ e ≤ 2 ^ lmax := by
  obtain ⟨k, rfl⟩ := hd
  have h1 : 2 ^ lmax = 2 ^ e * 2 ^ (lmax - e) := by rw [← pow_add]; congr 1; omega
  rw [h1] at hq ⊢
  have h2 := Nat.lt_of_mul_lt_mul_left hq
  calc 2 ^ e * k + 2 ^ e = 2 ^ e * (k + 1) := by ring
    _ ≤ _ := Nat.mul_le_mul_left _ (by omega)

theorem odds_room {lmax e : ℕ} (he : e < lmax) (q : ℕ) (hq : Odds (2 ^ lmax) (2 ^ e) q) :
    q + 2 ^ e ≤ 2 ^ lmax := by
  refine step_room he q hq.2 ?_
  have hdm := Nat.div_add_mod q (2 * 2 ^ e)
  rw [hq.1] at hdm
  rw [← hdm]
  exact Dvd.dvd.add (Dvd.dvd.mul_right (Dvd.intro_left _ rfl) _) (dvd_refl _)

theorem evens_room {lmax e : ℕ} (he : e < lmax) (q : ℕ) (hq : Evens (2 ^ lmax) (2 ^ e) q) :
    q + 2 ^ e ≤ 2 ^ lmax :=
  step_room he q hq.2.2 (dvd_trans (Dvd.intro_left _ rfl) (Nat.dvd_of_mod_eq_zero hq.1))

theorem localTo_full (periodic : Bool) {lmax e : ℕ} (he : e < lmax) :
    LocalTo (2 ^ lmax) (fun v : ℕ → K => fullStep periodic (2 ^ lmax) v e) ∧
    LocalTo (2 ^ lmax) (fun v : ℕ → K => unfullStep periodic (2 ^ lmax) v e) ∧
    LocalTo (2 ^ lmax) (fun v : ℕ → K => bioStep periodic (2 ^ lmax) v e) ∧
    LocalTo (2 ^ lmax) (fun v : ℕ → K => unbioStep periodic (2 ^ lmax) v e) := by
  have hw : 2 ^ e ≤ 2 ^ lmax := (two_pow_lt he).le
  have ho := fun f => localTo_pass (K := K) f (odds_room he)
  have hv := fun f => localTo_pass (K := K) f (evens_room he)
  have hn := fun f fp => localTo_ends (K := K) periodic f fp hw
  exact ⟨(ho _).comp ((hv _).comp (hn _ _)), (hn _ _).comp ((hv _).comp (ho _)),
    (hv _).comp ((hn _ _).comp (ho _)), (ho _).comp ((hv _).comp (hn _ _))⟩

theorem localTo_mass (β : Basis) {lmax e : ℕ} (he : e < lmax) :
    LocalTo (2 ^ lmax) (fun v : ℕ → K => massStep β (2 ^ lmax) v e) ∧
    LocalTo (2 ^ lmax) (fun v : ℕ → K => massUnstep β (2 ^ lmax) v e) := by
  obtain ⟨a1, a2, a3, a4⟩ := localTo_full (K := K) true he
  obtain ⟨b1, b2, b3, b4⟩ := localTo_full (K := K) false he
  cases β
  case fullWeightingPeriodic => exact ⟨a1, a2⟩
  case biorthogonalPeriodic => exact ⟨a3, a4⟩
  all_goals exact ⟨b1, b2⟩

omit [Field K] in
theorem localTo_foldl {N : ℕ} {s : (ℕ → K) → ℕ → ℕ → K} (es : List ℕ)
    (h : ∀ e ∈ es, LocalTo N (fun v => s v e)) : LocalTo N (fun v => es.foldl s v) := by
  induction es with
  | nil => intro u v h; exact h
  | cons e es ih =>
    exact (ih fun e he => h e (by simp [he])).comp (h e (by simp))

/-- A fold of steps leaves equal ends if there were equal ends before. -/
theorem mass_ends_foldl {β : Basis} (hβ : β.massConserving) {lmax : ℕ} (es : List ℕ) (v : ℕ → K)
    (hp : β.periodic = true → v 0 = v (2 ^ lmax)) (h : β.periodic) :
    es.foldl (massStep β (2 ^ lmax)) v 0 = es.foldl (massStep β (2 ^ lmax)) v (2 ^ lmax) ∧
    es.foldl (massUnstep β (2 ^ lmax)) v 0 = es.foldl (massUnstep β (2 ^ lmax)) v (2 ^ lmax) := by
  induction es using List.reverseRecOn with
  | nil => exact ⟨hp h, hp h⟩
  | append_singleton es e _ =>
    rw [List.foldl_append, List.foldl_append]
    exact ⟨(mass_ends hβ h e _).1, (mass_ends hβ h e _).2⟩

theorem mass_foldl_inverse [CharZero K] {β : Basis} (hβ : β.massConserving) {lmax k : ℕ}
    (hk : k ≤ lmax) (v : ℕ → K) (hp : β.periodic = true → v 0 = v (2 ^ lmax)) :
    (List.range k).reverse.foldl (massUnstep β (2 ^ lmax))
      ((List.range k).foldl (massStep β (2 ^ lmax)) v) = v ∧
    (List.range k).foldl (massStep β (2 ^ lmax))
      ((List.range k).reverse.foldl (massUnstep β (2 ^ lmax)) v) = v := by
  constructor
  · refine foldl_inverse_on (fun v : ℕ → K => β.periodic = true → v 0 = v (2 ^ lmax))
      (fun e => e < lmax) _ _ (fun a e _ hq => (mass_ends hβ hq e a).1)
      (fun a e he hq => (mass_inverse β he a hq).1) _ (by simp; omega) v hp
  · have := foldl_inverse_on (fun v : ℕ → K => β.periodic = true → v 0 = v (2 ^ lmax))
      (fun e => e < lmax) (massUnstep β (2 ^ lmax)) (massStep β (2 ^ lmax))
      (fun a e _ hq => (mass_ends hβ hq e a).2)
      (fun a e he hq => (mass_inverse β he a hq).2) (List.range k).reverse (by simp; omega) v hp
    rwa [List.reverse_reverse] at this

theorem trapezoid_congr_dvd (w M : ℕ) (u v : ℕ → K) (N : ℕ) (hN : w * M = N)
    (h : ∀ p ≤ N, w ∣ p → u p = v p) : trapezoid w M u = trapezoid w M v := by
  unfold trapezoid
  congr 1
  apply Finset.sum_congr rfl
  intro i hi
  rw [Finset.mem_range] at hi
  have hle : (i + 1) * w ≤ N := by
    rw [← hN, mul_comm w M]
    exact Nat.mul_le_mul_right _ hi
  rw [h (i * w) (le_trans (Nat.mul_le_mul_right _ (by omega)) hle) (Dvd.intro_left _ rfl),
    h ((i + 1) * w) hle (Dvd.intro_left _ rfl)]

theorem trapezoid_congr (w M : ℕ) (u v : ℕ → K) (N : ℕ) (hN : w * M = N)
    (h : ∀ p ≤ N, u p = v p) : trapezoid w M u = trapezoid w M v :=
  trapezoid_congr_dvd w M u v N hN fun p hp _ => h p hp

theorem mass_foldl [CharZero K] (β : Basis) {lmax k : ℕ} (hk : k ≤ lmax) (v : ℕ → K) :
    trapezoid (2 ^ k) (2 ^ (lmax - k)) ((List.range k).foldl (massStep β (2 ^ lmax)) v) =
      trapezoid 1 (2 ^ lmax) v := by
  induction k with
  | zero => simp
  | succ k ih =>
    rw [List.range_succ, List.foldl_append, ← ih (by omega)]
    simp only [List.foldl_cons, List.foldl_nil]
    cases β
    case fullWeightingPeriodic => exact (mass_step true (by omega) _).1
    case biorthogonalPeriodic => exact (mass_step true (by omega) _).2
    all_goals exact (mass_step false (by omega) _).1

end Verif
