import Verif.Model.MachineKernels
import Verif.Lemmas.RoundedKernels
import Verif.Lemmas.DistributedGrid
import Verif.Props.DistributedGrid

/-! Lemmas about `Model/MachineKernels`. -/

namespace Verif

variable {K : Type} [Field K]

/-! ### Steps of the mass conserving kernels -/

/-- What a loop does to the array: `c` is the factor of the parents. -/
def withFactor (c : K) (f : K → K → K → K) (l r v : K) : K := f (c * l) (c * r) v

/-- One level of the mass conserving hierarchization, as dispatched by the code. -/
def massStepWith (ar : Arith K) (β : Basis) (N : ℕ) (v : ℕ → K) (e : ℕ) : ℕ → K :=
  let full (p : Bool) := pass (Odds N (2 ^ e)) (2 ^ e) (withFactor (-2⁻¹) ar.full.odd)
    (pass (Evens N (2 ^ e)) (2 ^ e) (withFactor 4⁻¹ ar.full.even)
      (passEnds p ar.full.ends ar.full.endsPeriodic N (2 ^ e) v))
  match β with
  | .biorthogonalPeriodic => pass (Evens N (2 ^ e)) (2 ^ e) (withFactor 4⁻¹ ar.bio.even)
    (passEnds true ar.bio.ends ar.bio.endsPeriodic N (2 ^ e)
      (pass (Odds N (2 ^ e)) (2 ^ e) (withFactor (-2⁻¹) ar.bio.odd) v))
  | .fullWeightingPeriodic => full true
  | _ => full false

/-- One level of the mass conserving dehierarchization. -/
def massUnstepWith (ar : Arith K) (β : Basis) (N : ℕ) (v : ℕ → K) (e : ℕ) : ℕ → K :=
  let unfull (p : Bool) := passEnds p ar.unfull.ends ar.unfull.endsPeriodic N (2 ^ e)
    (pass (Evens N (2 ^ e)) (2 ^ e) (withFactor (-2⁻¹) ar.unfull.even)
      (pass (Odds N (2 ^ e)) (2 ^ e) (withFactor 2⁻¹ ar.unfull.odd) v))
  match β with
  | .biorthogonalPeriodic => pass (Odds N (2 ^ e)) (2 ^ e) (withFactor 2⁻¹ ar.unbio.odd)
    (pass (Evens N (2 ^ e)) (2 ^ e) (withFactor (-4⁻¹) ar.unbio.even)
      (passEnds true ar.unbio.ends ar.unbio.endsPeriodic N (2 ^ e) v))
  | .fullWeightingPeriodic => unfull true
  | _ => unfull false

theorem hierFullStepWith_eq (s : StepArith K) (periodic : Bool) {lmax e : ℕ} (h : e < lmax) (d : Buf K)
    (hlen : d.len = 2 ^ lmax + 1) :
    hierFullStepWith s periodic (2 ^ lmax) (2 ^ e) d = some ⟨d.len,
      pass (Odds (2 ^ lmax) (2 ^ e)) (2 ^ e) (withFactor (-2⁻¹) s.odd)
        (pass (Evens (2 ^ lmax) (2 ^ e)) (2 ^ e) (withFactor 4⁻¹ s.even)
          (passEnds periodic s.ends s.endsPeriodic (2 ^ lmax) (2 ^ e) d.val))⟩ := by
  have hs := two_pow_split h
  have hw : 0 < 2 ^ e := by positivity
  have hM : 0 < 2 ^ (lmax - e - 1) := by positivity
  unfold hierFullStepWith
  rw [endsUpdate_eq periodic _ _ hw (two_pow_lt h) d hlen]
  simp only [Option.bind_eq_bind, Option.bind_some]
  rw [hs] at hlen ⊢
  rw [evenLoop_eq _ _ hw hM _ (by exact hlen)]
  simp only [Option.bind_some]
  rw [oddLoop_eq _ _ hw hM _ (by exact hlen)]
  rfl

theorem dehierFullStepWith_eq (s : StepArith K) (periodic : Bool) {lmax e : ℕ} (h : e < lmax) (d : Buf K)
    (hlen : d.len = 2 ^ lmax + 1) :
    dehierFullStepWith s periodic (2 ^ lmax) (2 ^ e) d = some ⟨d.len,
      passEnds periodic s.ends s.endsPeriodic (2 ^ lmax) (2 ^ e)
        (pass (Evens (2 ^ lmax) (2 ^ e)) (2 ^ e) (withFactor (-2⁻¹) s.even)
          (pass (Odds (2 ^ lmax) (2 ^ e)) (2 ^ e) (withFactor 2⁻¹ s.odd) d.val))⟩ := by
  have hs := two_pow_split h
  have hw : 0 < 2 ^ e := by positivity
  have hlt := two_pow_lt h
  have hM : 0 < 2 ^ (lmax - e - 1) := by positivity
  unfold dehierFullStepWith
  rw [hs] at hlen hlt ⊢
  rw [oddLoop_eq _ _ hw hM _ (by exact hlen)]
  simp only [Option.bind_eq_bind, Option.bind_some]
  rw [evenLoop_eq _ _ hw hM _ (by exact hlen)]
  simp only [Option.bind_some]
  rw [endsUpdate_eq periodic _ _ hw hlt _ (by exact hlen)]
  rfl

theorem hierBioStepWith_eq (s : StepArith K) (periodic : Bool) {lmax e : ℕ} (h : e < lmax) (d : Buf K)
    (hlen : d.len = 2 ^ lmax + 1) :
    hierBioStepWith s periodic (2 ^ lmax) (2 ^ e) d = some ⟨d.len,
      pass (Evens (2 ^ lmax) (2 ^ e)) (2 ^ e) (withFactor 4⁻¹ s.even)
        (passEnds periodic s.ends s.endsPeriodic (2 ^ lmax) (2 ^ e)
          (pass (Odds (2 ^ lmax) (2 ^ e)) (2 ^ e) (withFactor (-2⁻¹) s.odd) d.val))⟩ := by
  have hs := two_pow_split h
  have hw : 0 < 2 ^ e := by positivity
  have hlt := two_pow_lt h
  have hM : 0 < 2 ^ (lmax - e - 1) := by positivity
  unfold hierBioStepWith
  rw [hs] at hlen hlt ⊢
  rw [oddLoop_eq _ _ hw hM _ (by exact hlen)]
  simp only [Option.bind_eq_bind, Option.bind_some]
  rw [endsUpdate_eq periodic _ _ hw hlt _ (by exact hlen)]
  simp only [Option.bind_some]
  rw [evenLoop_eq _ _ hw hM _ (by exact hlen)]
  rfl

theorem dehierBioStepWith_eq (s : StepArith K) (periodic : Bool) {lmax e : ℕ} (h : e < lmax) (d : Buf K)
    (hlen : d.len = 2 ^ lmax + 1) :
    dehierBioStepWith s periodic (2 ^ lmax) (2 ^ e) d = some ⟨d.len,
      pass (Odds (2 ^ lmax) (2 ^ e)) (2 ^ e) (withFactor 2⁻¹ s.odd)
        (pass (Evens (2 ^ lmax) (2 ^ e)) (2 ^ e) (withFactor (-4⁻¹) s.even)
          (passEnds periodic s.ends s.endsPeriodic (2 ^ lmax) (2 ^ e) d.val))⟩ := by
  have hs := two_pow_split h
  have hw : 0 < 2 ^ e := by positivity
  have hlt := two_pow_lt h
  have hM : 0 < 2 ^ (lmax - e - 1) := by positivity
  unfold dehierBioStepWith
  rw [hs] at hlen hlt ⊢
  rw [endsUpdate_eq periodic _ _ hw hlt _ (by exact hlen)]
  simp only [Option.bind_eq_bind, Option.bind_some]
  rw [evenLoop_eq _ _ hw hM _ (by exact hlen)]
  simp only [Option.bind_some]
  rw [oddLoop_eq _ _ hw hM _ (by exact hlen)]
  rfl

theorem massKernelsWith (ar : Arith K) {β : Basis} (hβ : β.massConserving) {lmax : ℕ} (hl : lmax ≤ 28)
    (lmin : ℕ) (d : Buf K) (hlen : d.len = 2 ^ lmax + 1) :
    hierKernelWith ar β lmax lmin d =
      some ⟨d.len, (List.range (lmax - lmin)).foldl (massStepWith ar β (2 ^ lmax)) d.val⟩ ∧
    dehierKernelWith ar β lmax lmin d =
      some ⟨d.len, (List.range (lmax - lmin)).reverse.foldl (massUnstepWith ar β (2 ^ lmax)) d.val⟩ := by
  have hF := fun p => upLevels_eq (K := K) (lmax := lmax) (step := hierFullStepWith ar.full p) hl
    (s := fun v e => pass (Odds (2 ^ lmax) (2 ^ e)) (2 ^ e) (withFactor (-2⁻¹) ar.full.odd)
      (pass (Evens (2 ^ lmax) (2 ^ e)) (2 ^ e) (withFactor 4⁻¹ ar.full.even)
        (passEnds p ar.full.ends ar.full.endsPeriodic (2 ^ lmax) (2 ^ e) v))) (fun e he d hd => hierFullStepWith_eq ar.full p he d hd) lmin d hlen
  have hB := fun p => upLevels_eq (K := K) (lmax := lmax) (step := hierBioStepWith ar.bio p) hl
    (s := fun v e => pass (Evens (2 ^ lmax) (2 ^ e)) (2 ^ e) (withFactor 4⁻¹ ar.bio.even)
      (passEnds p ar.bio.ends ar.bio.endsPeriodic (2 ^ lmax) (2 ^ e)
        (pass (Odds (2 ^ lmax) (2 ^ e)) (2 ^ e) (withFactor (-2⁻¹) ar.bio.odd) v))) (fun e he d hd => hierBioStepWith_eq ar.bio p he d hd) lmin d hlen
  have gF := fun p => downLevels_eq (K := K) (lmax := lmax) (step := dehierFullStepWith ar.unfull p) hl
    (s := fun v e => passEnds p ar.unfull.ends ar.unfull.endsPeriodic (2 ^ lmax) (2 ^ e)
      (pass (Evens (2 ^ lmax) (2 ^ e)) (2 ^ e) (withFactor (-2⁻¹) ar.unfull.even)
        (pass (Odds (2 ^ lmax) (2 ^ e)) (2 ^ e) (withFactor 2⁻¹ ar.unfull.odd) v))) (fun e he d hd => dehierFullStepWith_eq ar.unfull p he d hd) lmin d hlen
  have gB := fun p => downLevels_eq (K := K) (lmax := lmax) (step := dehierBioStepWith ar.unbio p) hl
    (s := fun v e => pass (Odds (2 ^ lmax) (2 ^ e)) (2 ^ e) (withFactor 2⁻¹ ar.unbio.odd)
      (pass (Evens (2 ^ lmax) (2 ^ e)) (2 ^ e) (withFactor (-4⁻¹) ar.unbio.even)
        (passEnds p ar.unbio.ends ar.unbio.endsPeriodic (2 ^ lmax) (2 ^ e) v))) (fun e he d hd => dehierBioStepWith_eq ar.unbio p he d hd) lmin d hlen
  cases β
  · exact absurd hβ (by decide)
  · exact absurd hβ (by decide)
  · exact ⟨hF false, gF false⟩
  · exact ⟨hF true, gF true⟩
  · exact ⟨hF false, gF false⟩
  · exact ⟨hB true, gB true⟩

theorem localTo_massWith (ar : Arith K) (β : Basis) {lmax e : ℕ} (he : e < lmax) :
    LocalTo (2 ^ lmax) (fun v : ℕ → K => massStepWith ar β (2 ^ lmax) v e) ∧
    LocalTo (2 ^ lmax) (fun v : ℕ → K => massUnstepWith ar β (2 ^ lmax) v e) := by
  have hw : 2 ^ e ≤ 2 ^ lmax := (two_pow_lt he).le
  have ho := fun f => localTo_pass (K := K) f (odds_room he)
  have hv := fun f => localTo_pass (K := K) f (evens_room he)
  have hn := fun p f fp => localTo_ends (K := K) p f fp hw
  have h1 := fun p => (ho (withFactor (-2⁻¹) ar.full.odd)).comp ((hv (withFactor 4⁻¹ ar.full.even)).comp
    (hn p ar.full.ends ar.full.endsPeriodic))
  have h2 := fun p => (hn p ar.unfull.ends ar.unfull.endsPeriodic).comp
    ((hv (withFactor (-2⁻¹) ar.unfull.even)).comp (ho (withFactor 2⁻¹ ar.unfull.odd)))
  cases β
  case biorthogonalPeriodic =>
    exact ⟨(hv _).comp ((hn _ _ _).comp (ho _)), (ho _).comp ((hv _).comp (hn _ _ _))⟩
  case fullWeightingPeriodic => exact ⟨h1 true, h2 true⟩
  all_goals exact ⟨h1 false, h2 false⟩

/-! ### Poles -/

/-- The arithmetic of the hierarchization with hat functions: left, right and central value. -/
def Arith.hatStep (ar : Arith K) (b : ℕ) (l r v : K) : K :=
  if b = 0 then ar.noBoundary l r v else ar.hat v (2⁻¹ * l) (2⁻¹ * r)

/-- The arithmetic of the dehierarchization with hat functions. -/
def Arith.unhatStep (ar : Arith K) (b : ℕ) (l r v : K) : K :=
  if b = 0 then ar.unNoBoundary l r v else ar.unhat v (2⁻¹ * l) (2⁻¹ * r)

theorem hierPoleWith_hat (ar : Arith K) {β : Basis} (hβ : β.isHat = true) {b lmax lmin : ℕ} (hb : b ≤ 2)
    (h0 : b = 0 → β = .hat) (hl : lmin < lmax) (hm : lmax ≤ 29)
    (gstart : ℕ) (remote : List (ℕ × K)) (junk : ℕ → K) (loc : Buf K)
    (hr : ∀ r ∈ remote, r.1 < poleLength lmax b) (hloc : gstart + loc.len ≤ poleLength lmax b) :
    ∃ m, hierPoleWith ar β b lmax lmin gstart remote junk loc = some m ∧ m.len = loc.len ∧
      ∀ i < loc.len, m.val i = (hatExps b lmax lmin).foldl (stepOf (ar.hatStep b) (2 ^ lmax))
        (nodalAt b lmax (filled gstart remote junk loc)) (gstart + i + posOff b) := by
  unfold hierPoleWith
  simp only
  rw [if_neg (by omega)]
  rcases Nat.eq_zero_or_pos b with rfl | hb0
  · have hg : poleLength lmax 0 = 2 ^ lmax - 1 := rfl
    rw [hg] at hr hloc ⊢
    rw [if_neg (by omega), if_neg (by simp [h0 rfl])]
    unfold noBoundaryPole
    rw [fillScratch_eq _ _ _ _ hr hloc]
    simp only [Option.bind_eq_bind, Option.bind_some]
    rw [hierNoBoundaryWith_eq _ hm _ rfl hloc]
    simp only [Option.bind_some, copyBack]
    rw [if_pos hloc]
    refine ⟨_, rfl, rfl, ?_⟩
    intro i hi
    simp only [posOff, nodalAt_zero, hatExps, if_true, Nat.sub_zero]
    rw [(nb_local lmax _ hloc _).2 (gstart + i) (by omega) (by omega)]
    have hp := congrFun (pad_foldl (lmax := lmax) ar.noBoundary
      (List.range lmax) (by simp) (filled gstart remote junk loc)) (gstart + i + 1)
    rw [pad, if_neg (by omega), Nat.add_sub_cancel] at hp
    rw [hp]
    rfl
  · rw [if_pos hb0]
    have hker : hierKernelWith ar β lmax lmin = hierHatWith ar.hat lmax lmin := by
      cases β <;> simp only [Basis.isHat, Bool.false_eq_true] at hβ <;> rfl
    rw [hker, withBoundaryPole_eq (by omega) _
      (fun v => (List.range (lmax - lmin)).foldl (passStep ar.hat (2 ^ lmax)) v)
      (fun d hd => hierHatWith_eq _ lmax lmin hl d hd) gstart remote junk loc hr hloc]
    refine ⟨_, rfl, rfl, ?_⟩
    intro i hi
    have e : stepOf (ar.hatStep b) (2 ^ lmax) = passStep ar.hat (2 ^ lmax) := by
      funext v e
      unfold stepOf passStep Arith.hatStep
      simp only [if_neg (show ¬ b = 0 by omega)]
    simp only [posOff, nodalAt_pos hb0, hatExps, if_neg (show ¬ b = 0 by omega), add_zero, e]

theorem dehierPoleWith_hat (ar : Arith K) {β : Basis} (hβ : β.isHat = true) {b lmax lmin : ℕ} (hb : b ≤ 2)
    (h0 : b = 0 → β = .hat) (hl : lmin < lmax) (hm : lmax ≤ 29)
    (gstart : ℕ) (remote : List (ℕ × K)) (junk : ℕ → K) (loc : Buf K)
    (hr : ∀ r ∈ remote, r.1 < poleLength lmax b) (hloc : gstart + loc.len ≤ poleLength lmax b) :
    ∃ m, dehierPoleWith ar β b lmax lmin gstart remote junk loc = some m ∧ m.len = loc.len ∧
      ∀ i < loc.len, m.val i =
        (List.range (unhatExps b lmax lmin)).reverse.foldl (stepOf (ar.unhatStep b) (2 ^ lmax))
        (nodalAt b lmax (filled gstart remote junk loc)) (gstart + i + posOff b) := by
  unfold dehierPoleWith
  simp only
  rw [if_neg (by omega)]
  rcases Nat.eq_zero_or_pos b with rfl | hb0
  · have hg : poleLength lmax 0 = 2 ^ lmax - 1 := rfl
    rw [hg] at hr hloc ⊢
    rw [if_neg (by omega), if_neg (by simp [h0 rfl])]
    unfold noBoundaryPole
    rw [fillScratch_eq _ _ _ _ hr hloc]
    simp only [Option.bind_eq_bind, Option.bind_some]
    rw [dehierNoBoundaryWith_eq _ hm (by omega) _ rfl]
    simp only [Option.bind_some, copyBack]
    rw [if_pos hloc]
    refine ⟨_, rfl, rfl, ?_⟩
    intro i hi
    simp only [posOff, nodalAt_zero, unhatExps, if_true]
    have hp := congrFun (pad_foldl (lmax := lmax) ar.unNoBoundary
      (List.range (lmax - 1)).reverse (by simp; omega)
      (filled gstart remote junk loc)) (gstart + i + 1)
    rw [pad, if_neg (by omega), Nat.add_sub_cancel] at hp
    rw [hp]
    rfl
  · rw [if_pos hb0]
    have hker : dehierKernelWith ar β lmax lmin = dehierHatWith ar.unhat lmax lmin := by
      cases β <;> simp only [Basis.isHat, Bool.false_eq_true] at hβ <;> rfl
    rw [hker, withBoundaryPole_eq (by omega) _
      (fun v => (List.range (lmax - lmin)).reverse.foldl (passStep ar.unhat (2 ^ lmax)) v)
      (fun d hd => dehierHatWith_eq _ lmax lmin hl d hd) gstart remote junk loc hr hloc]
    refine ⟨_, rfl, rfl, ?_⟩
    intro i hi
    have e : stepOf (ar.unhatStep b) (2 ^ lmax) = passStep ar.unhat (2 ^ lmax) := by
      funext v e
      unfold stepOf passStep Arith.unhatStep
      simp only [if_neg (show ¬ b = 0 by omega)]
    simp only [posOff, nodalAt_pos hb0, unhatExps, if_neg (show ¬ b = 0 by omega), add_zero, e]

theorem massPoleWith_eq (ar : Arith K) {β : Basis} (hβ : β.massConserving) {b lmax lmin : ℕ}
    (hb : b = 1 ∨ b = 2) (hl : lmin < lmax) (hm : lmax ≤ 28) (gstart : ℕ) (remote : List (ℕ × K))
    (junk : ℕ → K) (loc : Buf K) (hr : ∀ r ∈ remote, r.1 < poleLength lmax b)
    (hloc : gstart + loc.len ≤ poleLength lmax b) :
    hierPoleWith ar β b lmax lmin gstart remote junk loc = some ⟨loc.len, fun i =>
      (List.range (lmax - lmin)).foldl (massStepWith ar β (2 ^ lmax))
        (nodalAt b lmax (filled gstart remote junk loc)) (gstart + i)⟩ ∧
    dehierPoleWith ar β b lmax lmin gstart remote junk loc = some ⟨loc.len, fun i =>
      (List.range (lmax - lmin)).reverse.foldl (massUnstepWith ar β (2 ^ lmax))
        (nodalAt b lmax (filled gstart remote junk loc)) (gstart + i)⟩ := by
  have hb0 : b > 0 := by omega
  unfold hierPoleWith dehierPoleWith
  simp only [nodalAt_pos hb0]
  simp only [if_neg (show ¬ lmin ≥ lmax by omega), if_pos hb0]
  exact ⟨withBoundaryPole_eq hb _
      (fun v => (List.range (lmax - lmin)).foldl (massStepWith ar β (2 ^ lmax)) v)
      (fun d hd => (massKernelsWith ar hβ hm lmin d hd).1) gstart remote junk loc hr hloc,
    withBoundaryPole_eq hb _
      (fun v => (List.range (lmax - lmin)).reverse.foldl (massUnstepWith ar β (2 ^ lmax)) v)
      (fun d hd => (massKernelsWith ar hβ hm lmin d hd).2) gstart remote junk loc hr hloc⟩

/-- A transform of poles with a closed form. -/
theorem closedPole {b lmax : ℕ} (hb : b ≤ 2) (s : (ℕ → K) → ℕ → K) (hs : LocalTo (2 ^ lmax) s)
    (T : ℕ → List (ℕ × K) → (ℕ → K) → Buf K → Option (Buf K))
    (hT : ∀ (junk : ℕ → K) (loc : Buf K), loc.len = poleLength lmax b →
      ∃ m, T 0 [] junk loc = some m ∧ m.len = loc.len ∧
        ∀ i < loc.len, m.val i = s (nodalAt b lmax (filled 0 [] junk loc)) (0 + i + posOff b)) :
    (∀ junk : ℕ → ℕ → K, FunPole (poleLength lmax b) (fun p loc => T 0 [] (junk p) loc)
      fun v i => s (nodalAt b lmax v) (i + posOff b)) ∧
    FirstOnly (poleLength lmax b) fun v i => s (nodalAt b lmax v) (i + posOff b) := by
  constructor
  · intro junk p loc hlen
    obtain ⟨m, h1, h2, h3⟩ := hT (junk p) loc hlen
    refine ⟨m, h1, by rw [h2, hlen], fun i hi => ?_⟩
    rw [h3 i (by omega), zero_add]
    exact hs _ _ (nodalAt_congr hb _ _ fun q hq => filled_serial _ _ _ (by omega)) _ (posOff_le hb hi)
  · intro v w h i hi
    exact hs _ _ (nodalAt_congr hb _ _ h) _ (posOff_le hb hi)

theorem poleWith_congr (ar : Arith K) {v : ℕ → K} {β : Basis} {b lmax lmin gstart : ℕ}
    {remote remote' : List (ℕ × K)} (h : SameRemote v (poleLength lmax b) remote remote')
    (hlt : lmin < lmax) {loc loc' : Buf K} (hl : loc.len = loc'.len)
    (hv : ∀ i < loc.len, loc.val i = loc'.val i) (hloc : gstart + loc.len ≤ poleLength lmax b)
    (junk : ℕ → K) :
    hierPoleWith ar β b lmax lmin gstart remote junk loc =
      hierPoleWith ar β b lmax lmin gstart remote' junk loc' ∧
    dehierPoleWith ar β b lmax lmin gstart remote junk loc =
      dehierPoleWith ar β b lmax lmin gstart remote' junk loc' := by
  have h1 : ∀ kernel, withBoundaryPole (b == 1) kernel (poleLength lmax b) gstart remote junk loc =
      withBoundaryPole (b == 1) kernel (poleLength lmax b) gstart remote' junk loc' := by
    intro kernel
    unfold withBoundaryPole
    rw [fillScratch_congr h hl hv hloc (by simp only; split <;> omega), copyBack_congr hl]
  have h2 : ∀ kernel, noBoundaryPole kernel (poleLength lmax b) gstart remote junk loc =
      noBoundaryPole kernel (poleLength lmax b) gstart remote' junk loc' := by
    intro kernel
    unfold noBoundaryPole
    rw [fillScratch_congr h hl hv hloc (Nat.le_refl _), copyBack_congr hl]
  unfold hierPoleWith dehierPoleWith
  simp only [if_neg (show ¬ lmin ≥ lmax by omega), h1, h2, hl, and_self]

omit [Field K] in
theorem localTo_stepOf (f : K → K → K → K) (lmax : ℕ) (es : List ℕ) (hes : ∀ e ∈ es, e < lmax) :
    LocalTo (2 ^ lmax) fun v => es.foldl (stepOf f (2 ^ lmax)) v :=
  localTo_foldl es fun e he => localTo_pass f (odds_room (hes e he))

/-- What is needed of one dimension. -/
theorem distDim_polesWith (ar : Arith K) (s : DistDim) (h : s.Ok) : ∃ F G : (ℕ → K) → ℕ → K,
    (∀ junk : ℕ → ℕ → K,
      FunPole (poleLength s.dim.lmax s.dim.b)
        (fun p loc => hierPoleWith ar s.dim.basis s.dim.b s.dim.lmax s.dim.lmin 0 [] (junk p) loc) F ∧
      FunPole (poleLength s.dim.lmax s.dim.b)
        (fun p loc => dehierPoleWith ar s.dim.basis s.dim.b s.dim.lmax s.dim.lmin 0 [] (junk p) loc) G) ∧
    FirstOnly (poleLength s.dim.lmax s.dim.b) F ∧ FirstOnly (poleLength s.dim.lmax s.dim.b) G ∧
    (s.dim.lmin < s.dim.lmax →
      LocalPole s (hierExchange s.dim.basis)
        (hierPoleWith ar s.dim.basis s.dim.b s.dim.lmax s.dim.lmin) F ∧
      LocalPole s (dehierExchange s.dim.basis)
        (dehierPoleWith ar s.dim.basis s.dim.b s.dim.lmax s.dim.lmin) G) := by
  rcases Nat.lt_or_ge s.dim.lmin s.dim.lmax with hl | hl
  swap
  · refine ⟨fun v => v, fun v => v, ?_, fun _ _ h => h, fun _ _ h => h, fun hlt => by omega⟩
    intro junk
    constructor <;> intro p loc hlen <;> refine ⟨loc, ?_, hlen, fun _ _ => rfl⟩
    · unfold hierPoleWith
      exact if_pos hl
    · unfold dehierPoleWith
      exact if_pos hl
  obtain ⟨hdec, h⟩ := h
  rcases h with ⟨h1, h2, h3, h4⟩ | ⟨h1, h2, h3⟩
  · have hk : hatExps s.dim.b s.dim.lmax s.dim.lmin = List.range (s.dim.lmax - s.dim.lmin) := by
      unfold hatExps
      split_ifs with hc
      · rw [(h4 hc).2]
      · rfl
    have hk' : ∀ e ∈ (List.range (unhatExps s.dim.b s.dim.lmax s.dim.lmin)).reverse,
        e < s.dim.lmax - s.dim.lmin := by
      intro e he
      rw [List.mem_reverse, List.mem_range] at he
      unfold unhatExps at he
      split_ifs at he with hc
      · have := (h4 hc).2
        omega
      · exact he
    have eqH := hierPoleWith_hat ar h1 h2 (fun h => (h4 h).1) hl h3
    have eqU := dehierPoleWith_hat ar h1 h2 (fun h => (h4 h).1) hl h3
    obtain ⟨F1, F2⟩ := closedPole h2 _ (localTo_stepOf (ar.hatStep s.dim.b) s.dim.lmax
      (hatExps s.dim.b s.dim.lmax s.dim.lmin) (by rw [hk]; simp; omega)) _
      (fun junk loc hlen => eqH 0 [] junk loc (by simp) (by omega))
    obtain ⟨G1, G2⟩ := closedPole h2 _ (localTo_stepOf (ar.unhatStep s.dim.b) s.dim.lmax
      _ (fun e he => by have := hk' e he; omega)) _
      (fun junk loc hlen => eqU 0 [] junk loc (by simp) (by omega))
    refine ⟨_, _, fun junk => ⟨F1 junk, G1 junk⟩, F2, G2, fun _ => ⟨?_, ?_⟩⟩
    · obtain ⟨E, hE, hM⟩ := C29_hierarchization_matched _ _ _ _ h2 hl h3 hdec
      refine localPole_of hdec (E := E) (fun a ha => ?_) hM (fun _ => 0) (F1 fun _ _ => 0)
        (fun gstart v r r' loc loc' junk hr hlen hv hin =>
          (poleWith_congr ar hr hl hlen hv hin junk).1) ?_
      · unfold hierExchange
        rw [if_pos h1]
        exact hE a ha
      · intro v hv
        refine sameAsSerial_of hdec v hv _ _ ?_ ?_
        · intro junk t ht
          obtain ⟨m, e1, e2, -⟩ := eqH 0 [] junk v (by simp) (by omega)
          rw [e1] at ht
          cases ht
          rw [e2, hv]
          rfl
        · intro a ha junk junk'
          obtain ⟨S, R, m, t, e1, e2, e3, e4, e5, e6⟩ := (s.pole a).fine_local ⟨h2, hl, h3, hdec, ha⟩
            (fun h => (h4 h).2) _ _ eqH junk junk' v hv
          refine ⟨m, t, ?_, e4, e5, e6⟩
          unfold hierExchange
          rw [if_pos h1, e1, Option.bind_some]
          exact (congrArg (fun x => Option.bind x _) e2).trans e3
    · obtain ⟨E, hE, hM⟩ := C29_dehierarchization_matched _ _ _ _ h2 hl h3 hdec
      refine localPole_of hdec (E := E) (fun a ha => ?_) hM (fun _ => 0) (G1 fun _ _ => 0)
        (fun gstart v r r' loc loc' junk hr hlen hv hin =>
          (poleWith_congr ar hr hl hlen hv hin junk).2) ?_
      · unfold dehierExchange
        rw [if_pos h1]
        exact hE a ha
      · intro v hv
        refine sameAsSerial_of hdec v hv _ _ ?_ ?_
        · intro junk t ht
          obtain ⟨m, e1, e2, -⟩ := eqU 0 [] junk v (by simp) (by omega)
          rw [e1] at ht
          cases ht
          rw [e2, hv]
          rfl
        · intro a ha junk junk'
          obtain ⟨S, R, m, t, e1, e2, e3, e4, e5, e6⟩ := (s.pole a).coarse_local ⟨h2, hl, h3, hdec, ha⟩
            _ _ hk' _ eqU junk junk' v hv
          refine ⟨m, t, ?_, e4, e5, e6⟩
          unfold dehierExchange
          rw [if_pos h1, e1, Option.bind_some]
          exact (congrArg (fun x => Option.bind x _) e2).trans e3
  · have hat : s.dim.basis.isHat = false := by
      revert h1
      cases s.dim.basis <;> simp [Basis.massConserving, Basis.isHat]
    have hp0 : posOff s.dim.b = 0 := by unfold posOff; rw [if_neg (by omega)]
    have hb2 : s.dim.b ≤ 2 := by omega
    have eqM := massPoleWith_eq ar h1 h2 hl h3
    have hM := C29_all_matched s.dim.lmax s.dim.b s.dim.lmin s.dec (by omega) hl (by omega) hdec
    have loc1 := localTo_foldl (List.range (s.dim.lmax - s.dim.lmin))
      (s := massStepWith ar s.dim.basis (2 ^ s.dim.lmax))
      (fun e he => (localTo_massWith ar s.dim.basis (by rw [List.mem_range] at he; omega)).1)
    have loc2 := localTo_foldl (List.range (s.dim.lmax - s.dim.lmin)).reverse
      (s := massUnstepWith ar s.dim.basis (2 ^ s.dim.lmax))
      (fun e he => (localTo_massWith ar s.dim.basis (by
        rw [List.mem_reverse, List.mem_range] at he; omega)).2)
    obtain ⟨F1, F2⟩ := closedPole hb2 _ loc1
      (hierPoleWith ar s.dim.basis s.dim.b s.dim.lmax s.dim.lmin) (fun junk loc hlen =>
        ⟨_, (eqM 0 [] junk loc (by simp) (by omega)).1, rfl, fun i _ => by rw [hp0]; rfl⟩)
    obtain ⟨G1, G2⟩ := closedPole hb2 _ loc2
      (dehierPoleWith ar s.dim.basis s.dim.b s.dim.lmax s.dim.lmin) (fun junk loc hlen =>
        ⟨_, (eqM 0 [] junk loc (by simp) (by omega)).2, rfl, fun i _ => by rw [hp0]; rfl⟩)
    refine ⟨_, _, fun junk => ⟨F1 junk, G1 junk⟩, F2, G2, fun _ => ⟨?_, ?_⟩⟩
    · refine localPole_of hdec (fun a ha => ?_) hM (fun _ => 0) (F1 fun _ _ => 0)
        (fun gstart v r r' loc loc' junk hr hlen hv hin =>
          (poleWith_congr ar hr hl hlen hv hin junk).1) ?_
      · unfold hierExchange
        rw [hat]
        rfl
      · intro v hv
        refine sameAsSerial_of hdec v hv _ _ ?_ ?_
        · intro junk t ht
          rw [(eqM 0 [] junk v (by simp) (by omega)).1] at ht
          cases ht
          exact hv
        · intro a ha junk junk'
          obtain ⟨e2, m, t, e3, e4, e5, e6⟩ := (s.pole a).all_local ⟨hb2, hl, by simp only [DistDim.pole]; omega, hdec, ha⟩
            _ loc1 _ (fun gstart remote junk loc hr hloc => (eqM gstart remote junk loc hr hloc).1)
            junk junk' v hv
          refine ⟨m, t, ?_, e4, e5, e6⟩
          unfold hierExchange
          rw [hat]
          exact (congrArg (fun x => Option.bind x _) e2).trans e3
    · refine localPole_of hdec (fun a ha => ?_) hM (fun _ => 0) (G1 fun _ _ => 0)
        (fun gstart v r r' loc loc' junk hr hlen hv hin =>
          (poleWith_congr ar hr hl hlen hv hin junk).2) ?_
      · unfold dehierExchange
        rw [hat]
        rfl
      · intro v hv
        refine sameAsSerial_of hdec v hv _ _ ?_ ?_
        · intro junk t ht
          rw [(eqM 0 [] junk v (by simp) (by omega)).2] at ht
          cases ht
          exact hv
        · intro a ha junk junk'
          obtain ⟨e2, m, t, e3, e4, e5, e6⟩ := (s.pole a).all_local ⟨hb2, hl, by simp only [DistDim.pole]; omega, hdec, ha⟩
            _ loc2 _ (fun gstart remote junk loc hr hloc => (eqM gstart remote junk loc hr hloc).2)
            junk junk' v hv
          refine ⟨m, t, ?_, e4, e5, e6⟩
          unfold dehierExchange
          rw [hat]
          exact (congrArg (fun x => Option.bind x _) e2).trans e3

theorem distGrid_polesWith (ar : Arith K) (g : List DistDim) (hg : ∀ s ∈ g, s.Ok) :
    ∃ F G : ℕ → (ℕ → K) → ℕ → K, ∀ k (hk : k < g.length), (∀ junk : ℕ → ℕ → K,
      FunPole (poleLength g[k].dim.lmax g[k].dim.b) (fun p loc =>
        hierPoleWith ar g[k].dim.basis g[k].dim.b g[k].dim.lmax g[k].dim.lmin 0 [] (junk p) loc) (F k) ∧
      FunPole (poleLength g[k].dim.lmax g[k].dim.b) (fun p loc =>
        dehierPoleWith ar g[k].dim.basis g[k].dim.b g[k].dim.lmax g[k].dim.lmin 0 [] (junk p) loc) (G k)) ∧
    FirstOnly (poleLength g[k].dim.lmax g[k].dim.b) (F k) ∧
    FirstOnly (poleLength g[k].dim.lmax g[k].dim.b) (G k) ∧
    (g[k].dim.lmin < g[k].dim.lmax →
      LocalPole g[k] (hierExchange g[k].dim.basis)
        (hierPoleWith ar g[k].dim.basis g[k].dim.b g[k].dim.lmax g[k].dim.lmin) (F k) ∧
      LocalPole g[k] (dehierExchange g[k].dim.basis)
        (dehierPoleWith ar g[k].dim.basis g[k].dim.b g[k].dim.lmax g[k].dim.lmin) (G k)) := by
  refine ⟨fun k => if hk : k < g.length then
      (distDim_polesWith ar g[k] (hg _ (List.getElem_mem hk))).choose else fun v => v,
    fun k => if hk : k < g.length then
      (distDim_polesWith ar g[k] (hg _ (List.getElem_mem hk))).choose_spec.choose
      else fun v => v, fun k hk => ?_⟩
  simp only [dif_pos hk]
  exact (distDim_polesWith ar g[k] (hg _ (List.getElem_mem hk))).choose_spec.choose_spec

end Verif
