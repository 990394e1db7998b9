import Verif.Lemmas.RoundedGrid
import Verif.Props.GridTransform

/-!
# C112: rounding errors of hierarchization with hat functions
-/

namespace Verif

variable {K : Type} [Field K] [LinearOrder K] [IsStrictOrderedRing K]

/-- C112, hierarchization: in an arithmetic with relative errors `u`, hierarchizing the dimensions `dims` of
a grid with values up to `M` gives the hierarchical coefficients without rounding, up to
`((2 + 4 u) ^ n - 2 ^ n) M` for `n` dimensions (about `2 ^ n * 2 n u M`; the coefficients can be as large
as `2 ^ n M`). The number of levels does not matter. -/
theorem C112_hierarchize (g : List HatDim) (hg : ∀ s ∈ g, s.Ok) (dims : List ℕ)
    (hd : ∀ k ∈ dims, k < g.length) (u : K) (u0 : 0 ≤ u) (u1 : 4 * u ≤ 1) (A : Adder K) (hA : Rounds u A)
    (junk junk' : ℕ → ℕ → ℕ → K) (d : Buf K) (hlen : d.len = (g.map fun s => nodal s.lmax s.b).prod)
    (M : K) (hM : ∀ i < d.len, |d.val i| ≤ M) :
    ∃ m m', hierarchizeHat A g junk dims d = some m ∧
      hierarchizeGrid (g.map fun s => ⟨.hat, s.b, s.lmax, s.lmin⟩) junk' dims d = some m' ∧
      m.len = d.len ∧ m'.len = d.len ∧
      ∀ i < d.len, |m.val i - m'.val i| ≤ ((2 + 4 * u) ^ dims.length - 2 ^ dims.length) * M := by
  obtain ⟨C, hC⟩ := hatPoles (K := K) hg
  have hlen' : d.len = (hatSizes g).prod := hlen
  obtain ⟨m, e1, e2, e3⟩ := hier_all hg hd hC u0 u1 hA junk d hlen'
  have hsz : ((g.map fun s => (⟨.hat, s.b, s.lmax, s.lmin⟩ : GridDim)).map
      fun s => poleLength s.lmax s.b) = hatSizes g := by
    unfold hatSizes
    rw [List.map_map]
    rfl
  obtain ⟨m', f1, f2, f3⟩ := transformGrid_eq (sizes := hatSizes g) (dims := dims) (hatSizes_pos hg)
    (by simpa [hatSizes] using hd) (T := fun k p loc =>
      ((g.map fun s => (⟨.hat, s.b, s.lmax, s.lmin⟩ : GridDim))[k]?).bind fun s =>
        hierPole s.basis s.b s.lmax s.lmin 0 [] (junk' k p) loc) (A := C) (by
      intro k hk
      have hk' := hd k hk
      have e : (g.map fun s => (⟨.hat, s.b, s.lmax, s.lmin⟩ : GridDim))[k]? =
          some ⟨.hat, g[k].b, g[k].lmax, g[k].lmin⟩ := by simp [hk']
      simp only [e, Option.bind_some]
      rw [hatSizes_get g hk']
      exact (hC k hk').exact (junk' k)) d hlen'
  refine ⟨m, m', e1, ?_, e2, f2, ?_⟩
  · unfold hierarchizeGrid
    rw [hsz]
    exact f1
  · intro i hi
    obtain ⟨g1, g2⟩ := getVectorIndex_spec (hatSizes g) i (by omega)
    have hb : BoxBound (hatSizes g) (fun x => d.val (sequentialIndex (hatSizes g) x)) M :=
      fun x hx => hM _ (by rw [hlen']; exact sequentialIndex_lt _ _ hx)
    have h1 := e3 (fun x => d.val (sequentialIndex (hatSizes g) x)) M 0 (by simpa using hb)
      (by intro x _; simp) _ g1
    have h2 := f3 _ g1
    simp only [g2] at h1 h2
    rw [← h2, Nat.zero_add] at h1
    exact h1

theorem one_add_pow_le {x : K} (x0 : 0 ≤ x) (n : ℕ) (h : 2 * n * x ≤ 1) : (1 + x) ^ n ≤ 1 + 2 * n * x := by
  induction n with
  | zero => simp
  | succ n ih =>
    push_cast at h ⊢
    have h1 := ih (by nlinarith)
    have h2 := mul_le_mul_of_nonneg_right h1 (show 0 ≤ 1 + x by linarith)
    have h3 : (2 * n * x) * x ≤ 1 * x := mul_le_mul_of_nonneg_right (by nlinarith) x0
    rw [pow_succ]
    linarith

/-- C112: hierarchizing and dehierarchizing the dimensions `dims` of a grid in an arithmetic with relative
errors `u` restores its values up to `p * 2 ^ n * (4 n + 6) * u * M`, where `n` is the number of dimensions,
`p` the product of the numbers of hierarchized levels plus one, and `M` bounds the values; provided that the
factor of `M` is at most one. -/
theorem C112_roundtrip (g : List HatDim) (hg : ∀ s ∈ g, s.Ok) (dims : List ℕ)
    (hd : ∀ k ∈ dims, k < g.length) (u : K) (u0 : 0 ≤ u) (A : Adder K) (hA : Rounds u A)
    (hu : levelFactor g dims * 2 ^ dims.length * (4 * dims.length + 6) * u ≤ 1)
    (junk junk' : ℕ → ℕ → ℕ → K) (d : Buf K) (hlen : d.len = (g.map fun s => nodal s.lmax s.b).prod)
    (M : K) (hM : ∀ i < d.len, |d.val i| ≤ M) :
    ∃ m r, hierarchizeHat A g junk dims d = some m ∧ dehierarchizeHat A g junk' dims m = some r ∧
      r.len = d.len ∧ ∀ i < d.len,
        |r.val i - d.val i| ≤ levelFactor g dims * 2 ^ dims.length * (4 * dims.length + 6) * u * M := by
  obtain ⟨C, hC⟩ := hatPoles (K := K) hg
  have hlen' : d.len = (hatSizes g).prod := hlen
  set n : K := (dims.length : K) with hn
  set P : K := (levelFactor g dims : K) with hP
  set T : K := 2 ^ dims.length with hT
  have hn0 : 0 ≤ n := Nat.cast_nonneg _
  have hP1 : 1 ≤ P := by
    rw [hP]
    exact_mod_cast levelFactor_pos g dims
  have hT1 : 1 ≤ T := one_le_pow₀ (by norm_num)
  have hPT : 1 ≤ P * T := by nlinarith
  have hsm : (4 * n + 6) * u ≤ 1 := by
    have h1 : 0 ≤ (4 * n + 6) * u := by positivity
    have h2 := mul_le_mul_of_nonneg_right hPT h1
    linarith
  have hnu : 0 ≤ n * u := by positivity
  have u1 : 4 * u ≤ 1 := by linarith
  obtain ⟨m, e1, e2, e3⟩ := hier_all hg hd hC u0 u1 hA junk d hlen'
  obtain ⟨r, f1, f2, f3⟩ := dehier_all hg hd hC u0 u1 hA junk' m (by rw [e2, hlen'])
  refine ⟨m, r, e1, f1, by omega, ?_⟩
  intro i hi
  have hM0 : 0 ≤ M := (abs_nonneg _).trans (hM i hi)
  obtain ⟨g1, g2⟩ := getVectorIndex_spec (hatSizes g) i (by omega)
  have hb : BoxBound (hatSizes g) (fun x => d.val (sequentialIndex (hatSizes g) x)) M :=
    fun x hx => hM _ (by rw [hlen']; exact sequentialIndex_lt _ _ hx)
  have h1 := e3 (fun x => d.val (sequentialIndex (hatSizes g) x)) M 0 (by simpa using hb)
    (by intro x _; simp)
  rw [Nat.zero_add] at h1
  set η : K := ((2 + 4 * u) ^ dims.length - 2 ^ dims.length) * M with hη
  have hpow : (2 + 4 * u) ^ dims.length ≤ T + 4 * n * u * T := by
    have := one_add_pow_le (x := 2 * u) (by linarith) dims.length (by rw [← hn]; nlinarith)
    have e : (2 + 4 * u) ^ dims.length = T * (1 + 2 * u) ^ dims.length := by
      rw [hT, ← mul_pow]; congr 1; ring
    rw [e]
    have h2 := mul_le_mul_of_nonneg_left this (show 0 ≤ T by linarith)
    rw [← hn] at h2
    linarith
  have hη1 : η ≤ 4 * n * u * T * M := by
    rw [hη]
    have := mul_le_mul_of_nonneg_right hpow hM0
    rw [← hT]
    linarith
  have hη0 : 0 ≤ η := by
    rw [hη]
    refine mul_nonneg (sub_nonneg.2 ?_) hM0
    exact pow_le_pow_left₀ (by norm_num) (by linarith) _
  have huM : 0 ≤ u * M := by positivity
  have hle : P * (η + 6 * u * (T - 1) * M) ≤ P * T * (4 * n + 6) * u * M := by
    have : η + 6 * u * (T - 1) * M ≤ T * (4 * n + 6) * u * M := by nlinarith
    have := mul_le_mul_of_nonneg_left this (show 0 ≤ P by linarith)
    linarith
  have hsmall : P * T * (4 * n + 6) * u * M ≤ M := by
    have := mul_le_mul_of_nonneg_right hu hM0
    linarith
  have h2 := f3 _ M η hM0 hη0 hb h1 (hle.trans hsmall) _ g1
  simp only [g2] at h2
  exact h2.trans hle

/-- Without rounding, the modelled functions are the ones of C30. -/
theorem C112_exact {F : Type} [Field F] (g : List HatDim) (junk : ℕ → ℕ → ℕ → F) (dims : List ℕ) (d : Buf F) :
    hierarchizeHat (Adder.exact F) g junk dims d =
      hierarchizeGrid (g.map fun s => ⟨.hat, s.b, s.lmax, s.lmin⟩) junk dims d ∧
    dehierarchizeHat (Adder.exact F) g junk dims d =
      dehierarchizeGrid (g.map fun s => ⟨.hat, s.b, s.lmax, s.lmin⟩) junk dims d := by
  unfold hierarchizeHat dehierarchizeHat hierarchizeGrid dehierarchizeGrid
  simp only [List.map_map, Function.comp_def, List.getElem?_map, Option.bind_map, hierPoleHat_exact,
    dehierPoleHat_exact, and_self]

/-- An arithmetic whose results are too large by the factor `1 + u`. -/
def tooLarge (u : ℚ) : Adder ℚ := ⟨fun a b => (a + b) * (1 + u), fun a b => (a - b) * (1 + u)⟩

/-- The hypotheses of C112 hold for a grid in two dimensions, one with and one without boundary points, of
level three each, and an arithmetic with the relative error 2⁻²⁰; the values are not restored exactly. -/
example : let g : List HatDim := [⟨2, 3, 1⟩, ⟨0, 3, 0⟩]
    let u : ℚ := 1 / 2 ^ 20
    let d : Buf ℚ := ⟨63, fun i => (i % 7 : ℕ)⟩
    (∀ s ∈ g, s.Ok) ∧ (∀ k ∈ [0, 1], k < g.length) ∧ 0 ≤ u ∧ Rounds u (tooLarge u) ∧
    levelFactor g [0, 1] * 2 ^ ([0, 1] : List ℕ).length * (4 * (([0, 1] : List ℕ).length : ℚ) + 6) * u ≤ 1 ∧
    d.len = (g.map fun s => nodal s.lmax s.b).prod ∧ (∀ i < d.len, |d.val i| ≤ 6) ∧
    ((hierarchizeHat (tooLarge u) g (fun _ _ _ => 99) [0, 1] d).bind
      (dehierarchizeHat (tooLarge u) g (fun _ _ _ => 99) [0, 1])).map (fun r => decide (r.val 31 = d.val 31)) =
        some false := by
  refine ⟨?_, by decide, by norm_num, ?_, by decide +kernel, by decide, by decide +kernel, by decide +kernel⟩
  · intro s hs
    simp only [List.mem_cons, List.not_mem_nil, or_false] at hs
    rcases hs with rfl | rfl <;> exact ⟨by decide, by decide, by decide⟩
  · constructor <;> intro a b <;> refine le_of_eq ?_
    · have e : (tooLarge (1 / 2 ^ 20)).add a b - (a + b) = 1 / 2 ^ 20 * (a + b) := by
        unfold tooLarge; ring
      rw [e, abs_mul]
      norm_num
    · have e : (tooLarge (1 / 2 ^ 20)).sub a b - (a - b) = 1 / 2 ^ 20 * (a - b) := by
        unfold tooLarge; ring
      rw [e, abs_mul]
      norm_num

end Verif
