import Verif.Model.SerialHierarchization
import Verif.Lemmas.GridTransform

/-!
# Lemmas for the hierarchization of full grids that are not distributed
-/

namespace Verif.Serial

variable {K : Type} [Field K]

/-! ### Strided kernels do on the grid what they do on the pole -/

/-- `d` is the array `d0` with the pole starting at `start` replaced by `m`. -/
structure Sim (start S n : ℕ) (d0 m d : Buf K) : Prop where
  pos : 0 < S
  len : m.len = n
  len0 : d.len = d0.len
  fits : ∀ i < n, start + i * S < d.len
  on : ∀ i < n, d.val (start + i * S) = m.val i
  off : ∀ q, (∀ i < n, q ≠ start + i * S) → d.val q = d0.val q

variable {start S n : ℕ} {d0 m d : Buf K}

omit [Field K] in
theorem Sim.get (h : Sim start S n d0 m d) {i : ℕ} {v : K} (e : m.get? i = some v) :
    d.get? (start + i * S) = some v := by
  unfold Buf.get? at e ⊢
  split_ifs at e with hi
  rw [h.len] at hi
  rw [if_pos (h.fits i hi), h.on i hi]
  exact e

omit [Field K] in
theorem Sim.set (h : Sim start S n d0 m d) {i : ℕ} {v : K} {m' : Buf K}
    (e : m.set? i v = some m') :
    ∃ d', d.set? (start + i * S) v = some d' ∧ Sim start S n d0 m' d' := by
  unfold Buf.set? at e ⊢
  split_ifs at e with hi
  rw [h.len] at hi
  rw [if_pos (h.fits i hi)]
  cases e
  refine ⟨_, rfl, h.pos, h.len, h.len0, h.fits, ?_, ?_⟩
  · intro j hj
    by_cases hij : j = i
    · subst hij; simp
    · have : start + j * S ≠ start + i * S := fun e => hij (Nat.eq_of_mul_eq_mul_right h.pos (by omega))
      simp only [Function.update_of_ne this, Function.update_of_ne hij]
      exact h.on j hj
  · intro q hq
    simp only [Function.update_of_ne (hq i hi)]
    exact h.off q hq

omit [Field K] in
theorem Sim.getInt (h : Sim start S n d0 m d) {off po : ℕ} {v : K}
    (e : m.getInt? ((off : ℕ) - (po : ℕ)) = some v) :
    d.getInt? ((start + off * S : ℕ) - (po * S : ℕ)) = some v := by
  unfold Buf.getInt? at e ⊢
  split_ifs at e with hi
  obtain ⟨c, rfl⟩ : ∃ c, off = po + c := ⟨off - po, by omega⟩
  have e1 : (((start + (po + c) * S : ℕ) : ℤ) - (po * S : ℕ)) = ((start + c * S : ℕ) : ℤ) := by
    push_cast; ring
  have e2 : (((po + c : ℕ) : ℤ) - (po : ℕ)) = (c : ℤ) := by push_cast; ring
  rw [e2, Int.toNat_natCast] at e
  rw [e1, if_pos (by positivity), Int.toNat_natCast]
  exact h.get e

theorem inner_sim (f : K → K → K → K) (po ss : ℕ) (k : ℕ) {m d : Buf K} (h : Sim start S n d0 m d)
    (p : K) (off : ℕ) {m' : Buf K} {p' : K} {off' : ℕ}
    (e : inner f 0 1 po ss k (m, p, off) = some (m', p', off')) :
    ∃ d', inner f start S po ss k (d, p, off) = some (d', p', off') ∧ Sim start S n d0 m' d' := by
  induction k generalizing m d p off with
  | zero =>
    rw [inner] at e
    simp only [Option.some.injEq, Prod.mk.injEq] at e
    obtain ⟨rfl, rfl, rfl⟩ := e
    exact ⟨d, rfl, h⟩
  | succ k ih =>
    rw [inner] at e ⊢
    simp only [zero_add, mul_one, Option.bind_eq_bind, Option.bind_eq_some_iff] at e
    obtain ⟨v, e1, r, e2, m1, e3, e4⟩ := e
    obtain ⟨d1, f3, h1⟩ := h.set e3
    have f2 := h.get e2
    rw [add_mul, ← add_assoc] at f2
    obtain ⟨d', f4, h'⟩ := ih h1 _ _ e4
    refine ⟨d', ?_, h'⟩
    simp only [h.get e1, f2, f3, Option.bind_eq_bind, Option.bind_some, f4]

theorem hierNBLevels_sim (level k : ℕ) {m d : Buf K} (h : Sim start S n d0 m d)
    (steps off ss po : ℕ) {m' : Buf K}
    (e : hierNBLevels 0 1 level k m steps off ss po = some m') :
    ∃ d', hierNBLevels start S level k d steps off ss po = some d' ∧ Sim start S n d0 m' d' := by
  induction k generalizing m d steps off ss po with
  | zero =>
    rw [hierNBLevels] at e
    cases e
    exact ⟨d, rfl, h⟩
  | succ k ih =>
    rw [hierNBLevels] at e ⊢
    simp only [zero_add, mul_one, Option.bind_eq_bind, Option.bind_eq_some_iff] at e
    obtain ⟨r, e1, v, e2, m1, e3, p, e4, ⟨m2, pL, off2⟩, e5, w, e6, m3, e7, e8⟩ := e
    have f1 := h.get e1
    rw [add_mul, ← add_assoc] at f1
    obtain ⟨d1, f3, h1⟩ := h.set e3
    have f4 := h1.getInt e4
    obtain ⟨d2, f5, h2⟩ := inner_sim _ _ _ _ h1 _ _ e5
    obtain ⟨d3, f7, h3⟩ := h2.set e7
    obtain ⟨d', f8, h'⟩ := ih h3 _ _ _ _ e8
    refine ⟨d', ?_, h'⟩
    simp only [f1, h.get e2, f3, f4, f5, h2.get e6, f7, f8, Option.bind_eq_bind, Option.bind_some]

theorem hierBLevels_sim (level k : ℕ) {m d : Buf K} (h : Sim start S n d0 m d)
    (steps off ss po : ℕ) {m' : Buf K}
    (e : hierBLevels 0 1 level k m steps off ss po = some m') :
    ∃ d', hierBLevels start S level k d steps off ss po = some d' ∧ Sim start S n d0 m' d' := by
  induction k generalizing m d steps off ss po with
  | zero =>
    rw [hierBLevels] at e
    cases e
    exact ⟨d, rfl, h⟩
  | succ k ih =>
    rw [hierBLevels] at e ⊢
    simp only [zero_add, mul_one, Option.bind_eq_bind, Option.bind_eq_some_iff] at e
    obtain ⟨p, e4, ⟨m2, pL, off2⟩, e5, e8⟩ := e
    have f4 := h.getInt e4
    obtain ⟨d2, f5, h2⟩ := inner_sim _ _ _ _ h _ _ e5
    obtain ⟨d', f8, h'⟩ := ih h2 _ _ _ _ e8
    refine ⟨d', ?_, h'⟩
    simp only [f4, f5, f8, Option.bind_eq_bind, Option.bind_some]

theorem dehierNBLevels_sim (level k : ℕ) {m d : Buf K} (h : Sim start S n d0 m d)
    (steps : ℕ) (off : Option ℕ) (ss po : ℕ) {m' : Buf K}
    (e : dehierNBLevels 0 1 level k m steps off ss po = some m') :
    ∃ d', dehierNBLevels start S level k d steps off ss po = some d' ∧ Sim start S n d0 m' d' := by
  induction k generalizing m d steps off ss po with
  | zero =>
    rw [dehierNBLevels] at e
    cases e
    exact ⟨d, rfl, h⟩
  | succ k ih =>
    rw [dehierNBLevels] at e ⊢
    simp only [zero_add, mul_one, Option.bind_eq_bind, Option.bind_eq_some_iff] at e
    obtain ⟨off, rfl, r, e1, v, e2, m1, e3, ⟨m2, pL, off2⟩, e5, w, e6, m3, e7, e8⟩ := e
    have f1 := h.get e1
    rw [add_mul, ← add_assoc] at f1
    obtain ⟨d1, f3, h1⟩ := h.set e3
    obtain ⟨d2, f5, h2⟩ := inner_sim _ _ _ _ h1 _ _ e5
    obtain ⟨d3, f7, h3⟩ := h2.set e7
    obtain ⟨d', f8, h'⟩ := ih h3 _ _ _ _ e8
    refine ⟨d', ?_, h'⟩
    simp only [f1, h.get e2, f3, f5, h2.get e6, f7, f8, Option.bind_eq_bind, Option.bind_some]

theorem dehierBLevels_sim (level k : ℕ) {m d : Buf K} (h : Sim start S n d0 m d)
    (steps : ℕ) (off : Option ℕ) (ss po : ℕ) {m' : Buf K}
    (e : dehierBLevels 0 1 level k m steps off ss po = some m') :
    ∃ d', dehierBLevels start S level k d steps off ss po = some d' ∧ Sim start S n d0 m' d' := by
  induction k generalizing m d steps off ss po with
  | zero =>
    rw [dehierBLevels] at e
    cases e
    exact ⟨d, rfl, h⟩
  | succ k ih =>
    rw [dehierBLevels] at e ⊢
    simp only [zero_add, mul_one, Option.bind_eq_bind, Option.bind_eq_some_iff] at e
    obtain ⟨off, rfl, p, e4, ⟨m2, pL, off2⟩, e5, e8⟩ := e
    have f4 := h.getInt e4
    obtain ⟨d2, f5, h2⟩ := inner_sim _ _ _ _ h _ _ e5
    obtain ⟨d', f8, h'⟩ := ih h2 _ _ _ _ e8
    refine ⟨d', ?_, h'⟩
    simp only [f4, f5, f8, Option.bind_eq_bind, Option.bind_some]

/-- A kernel that works on any pole of an array as on the pole alone. -/
def Strided (T : ℕ → ℕ → Buf K → Option (Buf K)) : Prop :=
  ∀ start S n (d0 m d m' : Buf K), Sim start S n d0 m d → T 0 1 m = some m' →
    ∃ d', T start S d = some d' ∧ Sim start S n d0 m' d'

theorem hierNB_strided (level : ℕ) : Strided (K := K) (hierNB level) := by
  intro start S n d0 m d m' h e
  unfold hierNB at e ⊢
  split_ifs at e ⊢ with hl
  exact hierNBLevels_sim _ _ h _ _ _ _ e

theorem hierB_strided (level : ℕ) : Strided (K := K) (hierB level) := by
  intro start S n d0 m d m' h e
  unfold hierB at e ⊢
  split_ifs at e ⊢ with hl
  exact hierBLevels_sim _ _ h _ _ _ _ e

theorem dehierNB_strided (level : ℕ) : Strided (K := K) (dehierNB level) := by
  intro start S n d0 m d m' h e
  unfold dehierNB at e ⊢
  split_ifs at e ⊢ with hl
  · cases e
    exact ⟨d, rfl, h⟩
  · exact dehierNBLevels_sim _ _ h _ _ _ _ e

theorem dehierB_strided (level : ℕ) : Strided (K := K) (dehierB level) := by
  intro start S n d0 m d m' h e
  unfold dehierB at e ⊢
  split_ifs at e ⊢ with hl
  · cases e
    exact ⟨d, rfl, h⟩
  · exact dehierBLevels_sim _ _ h _ _ _ _ e

/-! ### The loop over the poles -/

theorem poleStep_sim {T : ℕ → ℕ → Buf K → Option (Buf K)} (hT : Strided T) {S n N : ℕ}
    {A : ℕ → ℕ → K} (hA : LinPole n (fun _ => T 0 1) A) (d : Buf K) (hd : d.len = N * (S * n))
    (hi lo : ℕ) (h1 : hi < N) (h2 : lo < S) :
    T (hi * (S * n) + lo) S d = poleStep S n (fun _ => T 0 1) d (hi, lo) := by
  obtain ⟨m, e1, e2, -⟩ := hA 0 ⟨n, fun i => d.val (hi * (S * n) + lo + i * S)⟩ rfl
  have hb : ∀ i < n, hi * (S * n) + lo + i * S < d.len := by
    intro i hi'
    rw [hd]
    have r1 : (hi + 1) * (S * n) ≤ N * (S * n) := Nat.mul_le_mul_right _ h1
    have r2 : (i + 1) * S ≤ n * S := Nat.mul_le_mul_right _ hi'
    nlinarith
  obtain ⟨r, f1, f2, f3, f4⟩ := write_pole S (hi * (S * n) + lo) (by omega) m d n e2.ge hb
  have hsim : Sim (hi * (S * n) + lo) S n d ⟨n, fun i => d.val (hi * (S * n) + lo + i * S)⟩ d :=
    ⟨by omega, rfl, rfl, hb, fun _ _ => rfl, fun _ _ => rfl⟩
  obtain ⟨d', g1, g2⟩ := hT _ _ _ _ _ _ _ hsim e1
  have hrd : r = d' := by
    have hv : r.val = d'.val := by
      funext q
      by_cases hq : ∃ i < n, q = hi * (S * n) + lo + i * S
      · obtain ⟨i, hi', rfl⟩ := hq
        rw [f3 i hi', g2.on i hi']
      · push Not at hq
        rw [f4 q hq, g2.off q hq]
    have hl : r.len = d'.len := by rw [f2, g2.len0]
    cases r; cases d'
    simp only at hv hl
    rw [hv, hl]
  rw [g1]
  unfold poleStep
  simp only [e1, Option.bind_some]
  rw [f1, hrd]

theorem foldlM_poles {α : Type} (S N : ℕ) (hS : 0 < S) (f : α → ℕ × ℕ → Option α) (d : α) :
    (List.range (N * S)).foldlM (fun d nn => f d (nn / S, nn % S)) d =
      ((List.range N).flatMap fun hi => (List.range S).map fun lo => (hi, lo)).foldlM f d := by
  have : ((List.range N).flatMap fun hi => (List.range S).map fun lo => (hi, lo)) =
      (List.range (N * S)).map fun nn => (nn / S, nn % S) := by
    induction N with
    | zero => simp
    | succ N ih =>
      rw [List.range_succ, List.flatMap_append, ih, Nat.succ_mul, List.range_add, List.map_append,
        List.flatMap_singleton, List.map_map]
      congr 1
      apply List.map_congr_left
      intro lo hlo
      rw [List.mem_range] at hlo
      simp only [Function.comp_apply, Prod.mk.injEq]
      rw [mul_comm N S, Nat.mul_add_div hS, Nat.mul_add_mod, Nat.mod_eq_of_lt hlo,
        Nat.div_eq_of_lt hlo]
      simp
  rw [this, List.foldlM_map]

theorem poleLoop_eq {T : ℕ → ℕ → Buf K → Option (Buf K)} (hT : Strided T) {S n N : ℕ} (hS : 0 < S)
    (hn : 0 < n) {A : ℕ → ℕ → K} (hA : LinPole n (fun _ => T 0 1) A) (d : Buf K)
    (hd : d.len = N * (S * n)) :
    poleLoop T S n d = ((List.range N).flatMap fun hi =>
      (List.range S).map fun lo => (hi, lo)).foldlM (poleStep S n (fun _ => T 0 1)) d := by
  unfold poleLoop
  rw [if_neg hn.ne']
  have h1 : d.len / n = N * S := by
    rw [hd, ← mul_assoc, Nat.mul_div_cancel _ hn]
  simp only [h1]
  rw [← foldlM_poles S N hS]
  have : ∀ (l : List ℕ), (∀ x ∈ l, x < N * S) → ∀ d : Buf K, d.len = N * (S * n) →
      l.foldlM (fun d nn => T (nn / S * (S * n) + nn % S) S d) d =
        l.foldlM (fun d nn => poleStep S n (fun _ => T 0 1) d (nn / S, nn % S)) d := by
    intro l
    induction l with
    | nil => intro _ d _; rfl
    | cons x l ih =>
      intro hl d hd
      have hx := hl x (by simp)
      have q1 : x / S < N := Nat.div_lt_of_lt_mul (by rwa [mul_comm])
      have q2 : x % S < S := Nat.mod_lt _ hS
      rw [List.foldlM_cons, List.foldlM_cons, poleStep_sim hT hA d hd _ _ q1 q2]
      obtain ⟨r, e1, e2, -⟩ := poleStep_eq hA N d hd _ _ q1 q2
      rw [e1]
      exact ih (fun x hx => hl x (by simp [hx])) r (by rw [e2, hd])
  exact this _ (by simp) d hd

theorem poleLoop_mapPoles {T : ℕ → ℕ → Buf K → Option (Buf K)} (hT : Strided T)
    (as : List ℕ) (n : ℕ) (bs : List ℕ) (hpos : ∀ a ∈ as ++ n :: bs, 0 < a) {A : ℕ → ℕ → K}
    (hA : LinPole n (fun _ => T 0 1) A) (d : Buf K) (hd : d.len = (as ++ n :: bs).prod) :
    poleLoop T as.prod n d = mapPoles (as ++ n :: bs) (fun _ => T 0 1) d as.length := by
  have hS : 0 < as.prod := List.prod_pos_iff_forall_pos_nat.2 fun a ha => hpos a (by simp [ha])
  have hn : 0 < n := hpos n (by simp)
  have hlen : d.len = bs.prod * (as.prod * n) := by
    rw [hd, List.prod_append, List.prod_cons]; ring
  have hj : 0 < as.prod * n := Nat.mul_pos hS hn
  rw [poleLoop_eq hT hS hn hA d hlen]
  unfold mapPoles
  have h1 : (as ++ n :: bs)[as.length]? = some n := by simp
  have h2 : (tensorOffsets (as ++ n :: bs))[as.length]? = some as.prod := tensorOffsets_split as bs n
  rw [h1, h2]
  simp only [Option.bind_some]
  rw [if_neg hj.ne', hlen, Nat.mul_div_cancel _ hj]

/-- The loop over the dimensions. -/
theorem dimLoop_eq (kernel : ℕ × ℕ → ℕ → ℕ → Buf K → Option (Buf K)) (g : List (ℕ × ℕ))
    (hk : ∀ s ∈ g, Strided (kernel s)) (hpos : ∀ s ∈ g, 0 < points s)
    (hA : ∀ s ∈ g, ∃ A, LinPole (points s) (fun _ => kernel s 0 1) A)
    (d : Buf K) (hd : d.len = (g.map points).prod) :
    dimLoop kernel g 1 d = transformGrid (g.map points)
      (fun k _ loc => (g[k]?).bind fun s => kernel s 0 1 loc) (List.range g.length) d := by
  have : ∀ (bs as : List (ℕ × ℕ)), g = as ++ bs → ∀ d : Buf K, d.len = (g.map points).prod →
      dimLoop kernel bs (as.map points).prod d = transformGrid (g.map points)
        (fun k _ loc => (g[k]?).bind fun s => kernel s 0 1 loc)
        ((List.range bs.length).map (as.length + ·)) d := by
    intro bs
    induction bs with
    | nil => intro as _ d _; rfl
    | cons s bs ih =>
      intro as hg d hd
      have hs : s ∈ g := by simp [hg]
      have hgm : g.map points = as.map points ++ points s :: bs.map points := by simp [hg]
      have hgk : g[as.length]? = some s := by simp [hg]
      have hpos' : ∀ a ∈ as.map points ++ points s :: bs.map points, 0 < a := by
        rw [← hgm]
        intro a ha
        obtain ⟨t, ht, rfl⟩ := List.mem_map.1 ha
        exact hpos t ht
      obtain ⟨A, hA'⟩ := hA s hs
      have h1 := poleLoop_mapPoles (hk s hs) (as.map points) (points s) (bs.map points) hpos' hA' d
        (by rw [hd, hgm])
      rw [← hgm, List.length_map] at h1
      obtain ⟨r, e1, e2, -⟩ := mapPoles_eq (g.map points) (by rw [hgm]; exact hpos') as.length
        (by simp [hg]) (T := fun _ => kernel s 0 1) (A := A) (by simpa [hg] using hA') d hd
      rw [dimLoop, h1, e1]
      simp only [Option.bind_eq_bind, Option.bind_some]
      have h2 := ih (as ++ [s]) (by simp [hg]) r (by rw [e2, hd])
      rw [List.map_append, List.prod_append, List.map_singleton, List.prod_singleton] at h2
      rw [h2]
      rw [List.length_cons, List.range_succ_eq_map, List.map_cons, List.map_map]
      unfold transformGrid
      rw [List.foldlM_cons]
      have h3 : mapPoles (g.map points) (fun _ loc => (g[as.length]?).bind fun s => kernel s 0 1 loc) d
          as.length = some r := by
        rw [hgk]
        exact e1
      rw [Nat.add_zero, h3]
      simp only [Option.bind_eq_bind, Option.bind_some]
      congr 1
      apply List.map_congr_left
      intro x _
      simp only [List.length_append, List.length_singleton, Function.comp_apply]
      omega
  have h := this g [] rfl d hd
  simpa using h

/-! ### The kernels with boundary on one pole -/

theorem inner_fst (f : K → K → K → K) (po ss n : ℕ) (d : Buf K) (p : K) (off : ℕ) :
    (inner f 0 1 po ss n (d, p, off)).map Prod.fst = hatInner f po ss n d p off := by
  induction n generalizing d p off with
  | zero => rfl
  | succ n ih =>
    rw [inner, hatInner]
    simp only [zero_add, mul_one, Option.bind_eq_bind]
    cases h1 : d.get? off with
    | none => cases d.get? (off + po) <;> rfl
    | some v =>
      cases h2 : d.get? (off + po) with
      | none => rfl
      | some r =>
        simp only [Option.bind_some]
        cases h3 : d.set? off (f v p (2⁻¹ * r)) with
        | none => rfl
        | some d' => simpa using ih d' _ _

theorem hierBLevels_one (level k : ℕ) (d : Buf K) (steps off ss po : ℕ) :
    hierBLevels 0 1 level k d steps off ss po =
      hierHatLevelsWith (fun v l r => v - l - r) level 0 k d steps off ss po := by
  induction k generalizing d steps off ss po with
  | zero => rfl
  | succ k ih =>
    rw [hierBLevels, hierHatLevelsWith]
    simp only [zero_add, mul_one, Option.bind_eq_bind, ← inner_fst]
    cases d.getInt? ((off : ℤ) - po) with
    | none => rfl
    | some p =>
      simp only [Option.bind_some]
      cases inner (fun v l r => v - l - r) 0 1 po ss steps (d, 2⁻¹ * p, off) with
      | none => rfl
      | some t => simp only [Option.bind_some, Option.map_some, ih]

theorem hierB_one (level : ℕ) (d : Buf K) : hierB level 0 1 d = hierHat level 0 d := by
  unfold hierB hierHat hierHatWith
  rw [Nat.sub_zero]
  simp only [hierBLevels_one]

theorem dehierBLevels_one (level k : ℕ) (d : Buf K) (steps : ℕ) (off : Option ℕ) (ss po : ℕ) :
    dehierBLevels 0 1 level k d steps off ss po =
      dehierHatLevelsWith (fun v l r => v + l + r) level k d steps off ss po := by
  induction k generalizing d steps off ss po with
  | zero => rfl
  | succ k ih =>
    rw [dehierBLevels, dehierHatLevelsWith]
    simp only [zero_add, mul_one, Option.bind_eq_bind, ← inner_fst]
    cases off with
    | none => rfl
    | some off =>
    simp only [Option.bind_some]
    cases d.getInt? ((off : ℤ) - po) with
    | none => rfl
    | some p =>
      simp only [Option.bind_some]
      cases inner (fun v l r => v + l + r) 0 1 po ss steps (d, 2⁻¹ * p, off) with
      | none => rfl
      | some t => simp only [Option.bind_some, Option.map_some, ih]

theorem dehierB_one (level : ℕ) (hl : 0 < level) (d : Buf K) (hlen : d.len = 2 ^ level + 1) :
    dehierB level 0 1 d =
      some ⟨d.len, (List.range level).reverse.foldl (unhatStep (2 ^ level)) d.val⟩ := by
  unfold dehierB
  rw [if_neg hl.ne', dehierBLevels_one]
  simp only [Nat.shiftLeft_eq, one_mul]
  have := dehierHatLevelsWith_eq (fun v l r => v + l + r) level level (le_refl _) d
    (some (2 ^ (level - 1))) (Or.inr rfl) hlen
  rw [Nat.sub_self, pow_zero] at this
  exact this

/-! ### The kernels without boundary on one pole -/

theorem inner_eq (f : K → K → K → K) {w : ℕ} (hw : 0 < w) (n : ℕ) (d : Buf K) (pL : K)
    (off : ℕ) (hoff : w ≤ off) (hpL : pL = 2⁻¹ * d.val (off - w))
    (hlen : off + 2 * w * n < d.len + w) :
    ∃ d', carry 2⁻¹ (fun l r v => f v l r) w n d pL off = some d' ∧
      inner f 0 1 w (2 * w) n (d, pL, off) =
        some (d', 2⁻¹ * d.val (off + 2 * w * n - w), off + 2 * w * n) := by
  induction n generalizing d pL off with
  | zero => exact ⟨d, rfl, by rw [inner, hpL]; rfl⟩
  | succ n ih =>
    rw [mul_add, mul_one] at hlen
    have b1 : off + w < d.len := by
      have := Nat.zero_le (2 * w * n)
      omega
    have b0 : off < d.len := by omega
    obtain ⟨d', e1, e2⟩ := ih ⟨d.len, Function.update d.val off (f (d.val off) pL
      (2⁻¹ * d.val (off + w)))⟩ (2⁻¹ * d.val (off + w)) (off + 2 * w) (by omega) (by
      have : off + 2 * w - w = off + w := by omega
      simp only [this]
      rw [Function.update_of_ne (by omega)]) (by simp only; omega)
    refine ⟨d', ?_, ?_⟩
    · rw [carry]
      simp only [Buf.get?, Buf.set?, b1, b0, if_true, Option.bind_eq_bind, Option.bind_some]
      exact e1
    · rw [inner]
      simp only [zero_add, mul_one, Buf.get?, Buf.set?, b1, b0, if_true, Option.bind_eq_bind,
        Option.bind_some]
      rw [e2]
      have h1 : off + 2 * w + 2 * w * n = off + 2 * w * (n + 1) := by ring
      rw [h1]
      have h2 : off + 2 * w * (n + 1) - w ≠ off := by rw [mul_add]; omega
      simp only [Function.update_of_ne h2]

/-- One level of the kernels without boundary: the first point, the inner loop, the last point. -/
def nbRound (F : K → K → K → K) (w M : ℕ) (d : Buf K) : Option (Buf K) := do
  let d1 ← d.set? (w - 1) (F (d.val (w - 1)) 0 (2⁻¹ * d.val (2 * w - 1)))
  let (d2, parL, off) ← inner F 0 1 w (2 * w) (M - 2) (d1, 2⁻¹ * d.val (2 * w - 1), 3 * w - 1)
  let v ← d2.get? off
  d2.set? off (F v parL 0)

theorem nbRound_eq (F : K → K → K → K) {w M : ℕ} (hw : 0 < w) (hM : 2 ≤ M) (d : Buf K)
    (hlen : d.len = 2 * w * M - 1) :
    ∃ d', nbRound F w M d = some d' ∧ d'.len = d.len ∧
      pad (2 * w * M - 1) d'.val = pass (Odds (2 * w * M) w) w
        (fun l r v => F v (2⁻¹ * l) (2⁻¹ * r)) (pad (2 * w * M - 1) d.val) := by
  obtain ⟨M, rfl⟩ : ∃ k, M = k + 2 := ⟨M - 2, by omega⟩
  have hexp : 2 * w * (M + 2) = 2 * w * M + 4 * w := by ring
  rw [hexp] at hlen ⊢
  unfold nbRound
  rw [Nat.add_sub_cancel]
  have b1 : w - 1 < d.len := by omega
  simp only [Buf.set?, b1, if_true, Option.bind_eq_bind, Option.bind_some]
  set x := F (d.val (w - 1)) 0 (2⁻¹ * d.val (2 * w - 1)) with hx
  obtain ⟨d2, e1, e2⟩ := inner_eq F hw M ⟨d.len, Function.update d.val (w - 1) x⟩
    (2⁻¹ * d.val (2 * w - 1)) (3 * w - 1) (by omega) (by
      have : 3 * w - 1 - w = 2 * w - 1 := by omega
      rw [this]
      simp only
      rw [Function.update_of_ne (by omega)]) (by simp only; omega)
  rw [carry_eq 2⁻¹ _ hw M _ _ (3 * w - 1) (by omega) (by
      have : 3 * w - 1 - w = 2 * w - 1 := by omega
      rw [this]
      simp only
      rw [Function.update_of_ne (by omega)]) (by simp only; omega)] at e1
  cases e1
  rw [e2]
  have hoff : 3 * w - 1 + 2 * w * M < d.len := by omega
  simp only [Option.bind_some, Buf.get?, hoff, if_true]
  set U : ℕ → K := Function.update d.val (w - 1) x with hU
  have hUne : ∀ q, q ≠ w - 1 → U q = d.val q := fun q hq => Function.update_of_ne hq _ _
  have hUx : U (w - 1) = x := Function.update_self ..
  set G : ℕ → K := fun q => if 3 * w - 1 ≤ q ∧ q < 3 * w - 1 + 2 * w * M ∧
    (q - (3 * w - 1)) % (2 * w) = 0 then F (U q) (2⁻¹ * U (q - w)) (2⁻¹ * U (q + w)) else U q with hG
  have hGoff : G (3 * w - 1 + 2 * w * M) = d.val (3 * w - 1 + 2 * w * M) := by
    rw [hG]
    simp only
    rw [if_neg (by omega), hUne _ (by omega)]
  refine ⟨⟨d.len, Function.update G (3 * w - 1 + 2 * w * M) (F (d.val (3 * w - 1 + 2 * w * M))
    (2⁻¹ * d.val (3 * w - 1 + 2 * w * M - w)) 0)⟩, ?_, rfl, ?_⟩
  · rw [← hGoff, ← hUne (3 * w - 1 + 2 * w * M - w) (by omega)]
  funext p
  unfold pass
  by_cases hp : p = 0 ∨ 2 * w * M + 4 * w - 1 < p
  · have hno : ¬ Odds (2 * w * M + 4 * w) w p := by
      unfold Odds
      rcases hp with rfl | hp
      · rw [Nat.zero_mod]; omega
      · omega
    rw [if_neg hno]
    unfold pad
    rw [if_pos hp, if_pos hp]
  · obtain ⟨q, rfl⟩ : ∃ q, p = q + 1 := ⟨p - 1, by omega⟩
    have hpad : ∀ u : ℕ → K, pad (2 * w * M + 4 * w - 1) u (q + 1) = u q := by
      intro u
      unfold pad
      rw [if_neg hp, Nat.add_sub_cancel]
    rw [hpad, hpad]
    simp only
    by_cases hm : (q + 1) % (2 * w) = w
    · rw [if_pos (show Odds (2 * w * M + 4 * w) w (q + 1) from ⟨hm, by omega⟩)]
      have hdm := Nat.div_add_mod (q + 1) (2 * w)
      rw [hm] at hdm
      obtain ⟨k, hk⟩ : ∃ k, k = (q + 1) / (2 * w) := ⟨_, rfl⟩
      rw [← hk] at hdm
      rcases Nat.eq_zero_or_pos k with hk0 | hk0
      · -- first point
        rw [hk0, mul_zero, zero_add] at hdm
        have hq : q = w - 1 := by omega
        subst hq
        rw [Function.update_of_ne (by omega), hG]
        simp only
        rw [if_neg (by omega), hUx, hx]
        congr 1
        · unfold pad
          rw [if_pos (Or.inl (by omega)), mul_zero]
        · unfold pad
          rw [if_neg (by omega)]
          congr 2
          omega
      · obtain ⟨k, rfl⟩ : ∃ j, k = j + 1 := ⟨k - 1, by omega⟩
        have hdm' : 2 * w * k + 3 * w = q + 1 := by rw [← hdm]; ring
        have hkM : k ≤ M := by
          by_contra hc
          have : 2 * w * (M + 1) ≤ 2 * w * k := Nat.mul_le_mul_left _ (by omega)
          rw [mul_add, mul_one] at this
          omega
        rcases Nat.lt_or_ge k M with hlt | hge
        · -- inner point
          have h1 : 2 * w * k + 2 * w ≤ 2 * w * M := by
            have : 2 * w * (k + 1) ≤ 2 * w * M := Nat.mul_le_mul_left _ hlt
            rw [mul_add, mul_one] at this
            exact this
          have hmod : (q - (3 * w - 1)) % (2 * w) = 0 := by
            have : q - (3 * w - 1) = 2 * w * k := by omega
            rw [this]
            exact Nat.mul_mod_right _ _
          rw [Function.update_of_ne (by omega), hG]
          simp only
          rw [if_pos ⟨by omega, by omega, hmod⟩, hUne _ (by omega), hUne _ (by omega),
            hUne _ (by omega)]
          congr 1
          · unfold pad
            rw [if_neg (by omega)]
            congr 2
            omega
          · unfold pad
            rw [if_neg (by omega)]
            congr 2
            omega
        · -- last point
          have hkM' : k = M := le_antisymm hkM hge
          subst hkM'
          have hq : q = 3 * w - 1 + 2 * w * k := by omega
          subst hq
          rw [Function.update_self]
          congr 1
          · unfold pad
            rw [if_neg (by omega)]
            congr 2
            omega
          · unfold pad
            rw [if_pos (Or.inr (by omega)), mul_zero]
    · rw [if_neg (fun h : Odds (2 * w * M + 4 * w) w (q + 1) => hm h.1)]
      have hne1 : q ≠ w - 1 := by
        rintro rfl
        apply hm
        rw [Nat.sub_add_cancel hw, Nat.mod_eq_of_lt (by omega)]
      have hne2 : q ≠ 3 * w - 1 + 2 * w * M := by
        rintro rfl
        apply hm
        rw [show 3 * w - 1 + 2 * w * M + 1 = w + 2 * w * (M + 1) by rw [mul_add]; omega,
          Nat.add_mul_mod_self_left, Nat.mod_eq_of_lt (by omega)]
      rw [Function.update_of_ne hne2, hG]
      simp only
      rw [if_neg]
      · exact hUne _ hne1
      · rintro ⟨a1, a2, a3⟩
        apply hm
        have := Nat.div_add_mod (q - (3 * w - 1)) (2 * w)
        rw [a3, add_zero] at this
        rw [show q + 1 = w + 2 * w * ((q - (3 * w - 1)) / (2 * w) + 1) by rw [mul_add]; omega,
          Nat.add_mul_mod_self_left, Nat.mod_eq_of_lt (by omega)]

theorem hierNBLevels_step (level k : ℕ) {w M : ℕ} (hw : 0 < w) (hM : 2 ≤ M) (d : Buf K)
    (hlen : d.len = 2 * w * M - 1) :
    hierNBLevels 0 1 level (k + 1) d M (w - 1) (2 * w) w =
      (nbRound (fun v l r => v - l - r) w M d).bind fun d => hierNBLevels 0 1 level k d (M >>> 1)
        ((1 <<< (level - (k + 1))) - 1) ((2 * w) <<< 1) (2 * w) := by
  have hwM : 2 * w * 2 ≤ 2 * w * M := Nat.mul_le_mul_left _ hM
  rw [hierNBLevels, nbRound]
  have b1 : w - 1 < d.len := by omega
  have b2 : w - 1 + w < d.len := by omega
  have e0 : w - 1 + w = 2 * w - 1 := by omega
  have e1 : w - 1 + 2 * w = 3 * w - 1 := by omega
  have e2 : ((3 * w - 1 : ℕ) : ℤ) - (w : ℕ) = ((2 * w - 1 : ℕ) : ℤ) := by omega
  have b3 : 2 * w - 1 < d.len := by omega
  have b4 : 2 * w - 1 ≠ w - 1 := by omega
  simp only [zero_add, mul_one, Buf.get?, Buf.set?, b1, e0, e1, e2, if_true, Option.bind_eq_bind,
    Option.bind_some, Buf.getInt?, Int.natCast_nonneg, Int.toNat_natCast, b3,
    Function.update_of_ne b4, sub_zero, Option.bind_assoc]

theorem hierNBLevels_eq (level k e : ℕ) (he : e + k + 1 = level) (d : Buf K)
    (hlen : d.len = 2 ^ level - 1) :
    ∃ d', hierNBLevels 0 1 level k d (2 ^ (level - e - 1)) (2 ^ e - 1) (2 * 2 ^ e) (2 ^ e) =
        some d' ∧ d'.len = d.len ∧
      pad (2 ^ level - 1) d'.val =
        ((List.range k).map (e + ·)).foldl (hatStep (2 ^ level)) (pad (2 ^ level - 1) d.val) := by
  induction k generalizing e d with
  | zero => exact ⟨d, rfl, rfl, rfl⟩
  | succ k ih =>
    have hsplit := two_pow_split (lmax := level) (e := e) (by omega)
    have hM : 2 ≤ 2 ^ (level - e - 1) := by
      calc 2 = 2 ^ 1 := rfl
        _ ≤ _ := Nat.pow_le_pow_right (by norm_num) (by omega)
    rw [hierNBLevels_step level k (by positivity) hM d (by rw [← hsplit, hlen])]
    obtain ⟨d1, f1, f2, f3⟩ := nbRound_eq (fun v l r => v - l - r) (w := 2 ^ e) (by positivity) hM d
      (by rw [← hsplit, hlen])
    rw [← hsplit] at f3
    rw [f1]
    simp only [Option.bind_some]
    have e1 : 2 ^ (level - e - 1) >>> 1 = 2 ^ (level - (e + 1) - 1) := by
      rw [Nat.shiftRight_eq_div_pow, pow_one]
      have : level - e - 1 = level - (e + 1) - 1 + 1 := by omega
      rw [this, pow_succ, Nat.mul_div_cancel _ (by norm_num)]
    have e2 : 1 <<< (level - (k + 1)) = 2 ^ (e + 1) := by
      rw [Nat.shiftLeft_eq, one_mul]
      congr 1
      omega
    have e3 : (2 * 2 ^ e) <<< 1 = 2 * 2 ^ (e + 1) := by
      rw [Nat.shiftLeft_eq, pow_succ]
      ring
    have e4 : 2 * 2 ^ e = 2 ^ (e + 1) := by rw [pow_succ]; ring
    rw [e1, e2, e3, e4]
    obtain ⟨d', g1, g2, g3⟩ := ih (e + 1) (by omega) d1 (by omega)
    refine ⟨d', g1, by omega, ?_⟩
    rw [g3, f3, List.range_succ_eq_map, List.map_cons, List.foldl_cons, List.map_map, add_zero]
    congr 2
    funext x
    simp only [Function.comp]
    omega

/-- The step of the coarsest level only uses the boundary values, which are zero. -/
theorem coarsest_pad (level : ℕ) (hl : 0 < level) (v : ℕ → K) :
    hatStep (2 ^ level) (pad (2 ^ level - 1) v) (level - 1) = pad (2 ^ level - 1) v ∧
    unhatStep (2 ^ level) (pad (2 ^ level - 1) v) (level - 1) = pad (2 ^ level - 1) v := by
  have h2 : 2 * 2 ^ (level - 1) = 2 ^ level := by
    rw [← pow_succ']; congr 1; omega
  have key : ∀ p, Odds (2 ^ level) (2 ^ (level - 1)) p →
      pad (2 ^ level - 1) v (p - 2 ^ (level - 1)) = 0 ∧
      pad (2 ^ level - 1) v (p + 2 ^ (level - 1)) = 0 := by
    intro p ho
    obtain ⟨ho1, ho2⟩ := ho
    rw [h2, Nat.mod_eq_of_lt ho2] at ho1
    exact ⟨by rw [pad, if_pos (by omega)], by rw [pad, if_pos (by omega)]⟩
  constructor
  · funext p
    unfold hatStep pass
    split
    · rename_i ho
      rw [(key p ho).1, (key p ho).2]
      ring
    · rfl
  · funext p
    unfold unhatStep pass
    split
    · rename_i ho
      rw [(key p ho).1, (key p ho).2]
      ring
    · rfl

theorem hierNB_one (level : ℕ) (hl : 0 < level) (d : Buf K) (hlen : d.len = 2 ^ level - 1) :
    ∃ d', hierNB level 0 1 d = some d' ∧ d'.len = d.len ∧
      pad (2 ^ level - 1) d'.val =
        (List.range level).foldl (hatStep (2 ^ level)) (pad (2 ^ level - 1) d.val) := by
  obtain ⟨d', h1, h2, h3⟩ := hierNBLevels_eq level (level - 1) 0 (by omega) d hlen
  refine ⟨d', ?_, h2, ?_⟩
  · unfold hierNB
    rw [if_neg hl.ne', Nat.shiftLeft_eq, one_mul]
    simpa using h1
  · have hsplit : List.range level = List.range (level - 1) ++ [level - 1] := by
      rw [← List.range_succ]; congr 1; omega
    simp only [zero_add, List.map_id'] at h3
    rw [hsplit, List.foldl_append, ← h3, List.foldl_cons, List.foldl_nil, (coarsest_pad level hl _).1]

theorem dehierNBLevels_step (level k : ℕ) {w M : ℕ} (hw : 0 < w) (hM : 2 ≤ M) (d : Buf K)
    (hlen : d.len = 2 * w * M - 1) :
    dehierNBLevels 0 1 level (k + 1) d M (some (w - 1)) (2 * w) w =
      (nbRound (fun v l r => v + l + r) w M d).bind fun d => dehierNBLevels 0 1 level k d (M <<< 1)
        ((shiftOne ((level : ℤ) - ((level : ℤ) - k + 1))).map (· - 1)) ((2 * w) >>> 1)
        (w >>> 1) := by
  have hwM : 2 * w * 2 ≤ 2 * w * M := Nat.mul_le_mul_left _ hM
  rw [dehierNBLevels, nbRound]
  have b1 : w - 1 < d.len := by omega
  have e0 : w - 1 + w = 2 * w - 1 := by omega
  have e1 : w - 1 + 2 * w = 3 * w - 1 := by omega
  have b3 : 2 * w - 1 < d.len := by omega
  simp only [zero_add, mul_one, Buf.get?, Buf.set?, b1, e0, e1, if_true, Option.bind_eq_bind,
    Option.bind_some, b3, add_zero, Option.bind_assoc]

theorem dehierNBLevels_eq (level k : ℕ) (hk : k < level) (d : Buf K) (o : Option ℕ)
    (ho : k = 0 ∨ o = some (2 ^ (k - 1) - 1)) (hlen : d.len = 2 ^ level - 1) :
    ∃ d', dehierNBLevels 0 1 level k d (2 ^ (level - k)) o (2 ^ k) (2 ^ (k - 1)) = some d' ∧
      d'.len = d.len ∧
      pad (2 ^ level - 1) d'.val =
        (List.range k).reverse.foldl (unhatStep (2 ^ level)) (pad (2 ^ level - 1) d.val) := by
  induction k generalizing d o with
  | zero => exact ⟨d, rfl, rfl, rfl⟩
  | succ k ih =>
    have hsplit := two_pow_split (lmax := level) (e := k) (by omega)
    rcases ho with ho | rfl
    · omega
    have hM : 2 ≤ 2 ^ (level - k - 1) := by
      calc 2 = 2 ^ 1 := rfl
        _ ≤ _ := Nat.pow_le_pow_right (by norm_num) (by omega)
    rw [Nat.add_sub_cancel, show 2 ^ (k + 1) = 2 * 2 ^ k by rw [pow_succ]; ring,
      show level - (k + 1) = level - k - 1 by omega,
      dehierNBLevels_step level k (by positivity) hM d (by rw [← hsplit, hlen])]
    obtain ⟨d1, f1, f2, f3⟩ := nbRound_eq (fun v l r => v + l + r) (w := 2 ^ k) (by positivity) hM d
      (by rw [← hsplit, hlen])
    rw [← hsplit] at f3
    rw [f1]
    simp only [Option.bind_some]
    have e1 : 2 ^ (level - k - 1) <<< 1 = 2 ^ (level - k) := by
      rw [Nat.shiftLeft_eq, ← pow_add]
      congr 1
      omega
    have e2 : (2 * 2 ^ k) >>> 1 = 2 ^ k := by
      rw [Nat.shiftRight_eq_div_pow, pow_one, Nat.mul_div_cancel_left _ (by norm_num)]
    have hfold : (List.range (k + 1)).reverse.foldl (unhatStep (2 ^ level)) (pad (2 ^ level - 1) d.val) =
        (List.range k).reverse.foldl (unhatStep (2 ^ level)) (pad (2 ^ level - 1) d1.val) := by
      rw [f3, List.range_succ, List.reverse_append]
      rfl
    rw [hfold, e1, e2]
    rcases Nat.eq_zero_or_pos k with rfl | hpos
    · exact ⟨d1, rfl, f2, rfl⟩
    · have e3 : 2 ^ k >>> 1 = 2 ^ (k - 1) := by
        rw [Nat.shiftRight_eq_div_pow, pow_one]
        have : k = k - 1 + 1 := by omega
        rw [this, pow_succ, Nat.mul_div_cancel _ (by norm_num), Nat.add_sub_cancel]
      have e4 : shiftOne ((level : ℤ) - ((level : ℤ) - k + 1)) = some (2 ^ (k - 1)) := by
        unfold shiftOne
        rw [if_pos (by omega)]
        congr 1
        rw [Nat.shiftLeft_eq, one_mul]
        congr 1
        omega
      rw [e3, e4, Option.map_some]
      obtain ⟨d', g1, g2, g3⟩ := ih (by omega) d1 _ (Or.inr rfl) (by omega)
      exact ⟨d', g1, by omega, g3⟩

theorem dehierNB_one (level : ℕ) (hl : 0 < level) (d : Buf K) (hlen : d.len = 2 ^ level - 1) :
    ∃ d', dehierNB level 0 1 d = some d' ∧ d'.len = d.len ∧
      pad (2 ^ level - 1) d'.val =
        (List.range level).reverse.foldl (unhatStep (2 ^ level)) (pad (2 ^ level - 1) d.val) := by
  have hsplit : List.range level = List.range (level - 1) ++ [level - 1] := by
    rw [← List.range_succ]; congr 1; omega
  rw [hsplit, List.reverse_append, List.reverse_singleton, List.singleton_append, List.foldl_cons,
    (coarsest_pad level hl _).2]
  unfold dehierNB
  rcases Nat.lt_or_ge 1 level with h | h
  · rw [if_neg (by omega)]
    obtain ⟨d', h1, h2, h3⟩ := dehierNBLevels_eq level (level - 1) (by omega) d
      (some (2 ^ (level - 1 - 1) - 1)) (Or.inr rfl) hlen
    refine ⟨d', ?_, h2, h3⟩
    rw [← h1]
    simp only [Nat.shiftLeft_eq, one_mul]
    rw [show level - (level - 1) = 1 by omega, show level - 1 - 1 = level - 2 by omega, pow_one]
  · rw [if_pos h]
    have : level - 1 = 0 := by omega
    rw [this]
    exact ⟨d, rfl, rfl, rfl⟩

/-! ### The kernels have the same matrices as those of the distributed grids -/

/-- The kernel that `hierarchize` selects. -/
abbrev hierKernel (s : ℕ × ℕ) (start stride : ℕ) (d : Buf K) : Option (Buf K) :=
  if s.2 = 0 then hierNB s.1 start stride d else hierB s.1 start stride d

/-- The kernel that `dehierarchize` selects. -/
abbrev dehierKernel (s : ℕ × ℕ) (start stride : ℕ) (d : Buf K) : Option (Buf K) :=
  if s.2 = 0 then dehierNB s.1 start stride d else dehierB s.1 start stride d

theorem serial_linPole {b level : ℕ} (hb : b = 0 ∨ b = 2) (hl : 0 < level) (hm : level ≤ 29) :
    ∃ A B : ℕ → ℕ → K,
      LinPole (poleLength level b) (fun _ => hierKernel (level, b) 0 1) A ∧
      LinPole (poleLength level b) (fun _ => dehierKernel (level, b) 0 1) B ∧
      ∀ junk : ℕ → ℕ → K,
      LinPole (poleLength level b) (fun p loc => hierPole .hat b level 0 0 [] (junk p) loc) A ∧
      LinPole (poleLength level b) (fun p loc => dehierPole .hat b level 0 0 [] (junk p) loc) B := by
  obtain ⟨A, B, h⟩ := hat_linPole (K := K) (b := b) (lmax := level) (lmin := 0) (by omega) hm
  refine ⟨A, B, ?_, ?_, h⟩
  · intro p loc hlen
    obtain ⟨m, e1, e2, e3⟩ := (h fun _ _ => 0).1 p loc hlen
    obtain ⟨m', f1, f2, f3⟩ := hierPole_hat_eq (K := K) (b := b) (by omega) hl hm 0 [] (fun _ => 0) loc
      (by simp) (by omega)
    obtain rfl := Option.some.inj (e1.symm.trans f1)
    rcases hb with rfl | rfl
    · obtain ⟨d', g1, g2, g3⟩ := hierNB_one level hl loc hlen
      refine ⟨d', by simpa [hierKernel] using g1, by omega, fun i hi => ?_⟩
      rw [← e3 i hi, f3 i (by omega)]
      have h1 := congrFun g3 (i + 1)
      have hi' : i < 2 ^ level - 1 := hi
      rw [pad, if_neg (by omega), Nat.add_sub_cancel] at h1
      rw [h1, Nat.zero_add]
      simp only [posOff, nodalAt_zero, hatExps, if_true, Nat.sub_zero]
      refine (agree_upto level _ _ (by simp) _ _ ?_ (i + 1) (by omega)).symm
      intro p _
      unfold pad
      split_ifs with hc
      · rfl
      · have hl1 : loc.len = 2 ^ level - 1 := hlen
        rw [filled_serial _ _ _ (by omega)]
    · refine ⟨⟨loc.len, (List.range level).foldl (hatStep (2 ^ level)) loc.val⟩, ?_, hlen,
        fun i hi => ?_⟩
      · show hierB level 0 1 loc = _
        rw [hierB_one, hierHat_eq level 0 hl loc hlen, Nat.sub_zero]
      · rw [← e3 i hi, f3 i (by omega)]
        simp only [posOff, nodalAt_pos (show 0 < 2 by omega), hatExps, OfNat.ofNat_ne_zero, if_false,
          Nat.sub_zero, zero_add, add_zero]
        have hi' : i < 2 ^ level + 2 - 1 := hi
        have hl1 : loc.len = 2 ^ level + 2 - 1 := hlen
        refine (agree_upto level _ _ (by simp) _ _ ?_ i (by omega)).symm
        intro p hp
        simp only [OfNat.ofNat_ne_one, false_and, if_false]
        rw [filled_serial _ _ _ (by omega)]
  · intro p loc hlen
    obtain ⟨m, e1, e2, e3⟩ := (h fun _ _ => 0).2 p loc hlen
    obtain ⟨m', f1, f2, f3⟩ := dehierPole_hat_eq (K := K) (b := b) (by omega) hl hm 0 [] (fun _ => 0)
      loc (by simp) (by omega)
    obtain rfl := Option.some.inj (e1.symm.trans f1)
    rcases hb with rfl | rfl
    · obtain ⟨d', g1, g2, g3⟩ := dehierNB_one level hl loc hlen
      refine ⟨d', by simpa [dehierKernel] using g1, by omega, fun i hi => ?_⟩
      rw [← e3 i hi, f3 i (by omega)]
      have h1 := congrFun g3 (i + 1)
      have hi' : i < 2 ^ level - 1 := hi
      rw [pad, if_neg (by omega), Nat.add_sub_cancel] at h1
      rw [h1, Nat.zero_add]
      simp only [posOff, nodalAt_zero, hatExps, if_true, Nat.sub_zero]
      refine (agree_upto level _ _ (by simp) _ _ ?_ (i + 1) (by omega)).symm
      intro p _
      unfold pad
      split_ifs with hc
      · rfl
      · have hl1 : loc.len = 2 ^ level - 1 := hlen
        rw [filled_serial _ _ _ (by omega)]
    · refine ⟨⟨loc.len, (List.range level).reverse.foldl (unhatStep (2 ^ level)) loc.val⟩, ?_, hlen,
        fun i hi => ?_⟩
      · exact dehierB_one level hl loc hlen
      · rw [← e3 i hi, f3 i (by omega)]
        simp only [posOff, nodalAt_pos (show 0 < 2 by omega), hatExps, OfNat.ofNat_ne_zero, if_false,
          Nat.sub_zero, zero_add, add_zero]
        have hi' : i < 2 ^ level + 2 - 1 := hi
        have hl1 : loc.len = 2 ^ level + 2 - 1 := hlen
        refine (agree_upto level _ _ (by simp) _ _ ?_ i (by omega)).symm
        intro p hp
        simp only [OfNat.ofNat_ne_one, false_and, if_false]
        rw [filled_serial _ _ _ (by omega)]

theorem hierKernel_strided (s : ℕ × ℕ) : Strided (K := K) (hierKernel s) := by
  unfold hierKernel
  by_cases h : s.2 = 0
  · simp only [h, if_true]; exact hierNB_strided _
  · simp only [h, if_false]; exact hierB_strided _

theorem dehierKernel_strided (s : ℕ × ℕ) : Strided (K := K) (dehierKernel s) := by
  unfold dehierKernel
  by_cases h : s.2 = 0
  · simp only [h, if_true]; exact dehierNB_strided _
  · simp only [h, if_false]; exact dehierB_strided _

end Verif.Serial
