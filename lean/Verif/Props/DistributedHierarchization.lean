import Verif.Lemmas.DistPoles

/-!
# Distributed hierarchization of one dimension: C28, C29

The statements are about the model of `Verif.Model.Exchange` (which indices are exchanged) and of
`Verif.Model.Kernels` (what is computed from them).
-/

namespace Verif

/-! ### C29: the exchange is matched -/

/-- What C29 asks of the exchanges of all processes of a pole. `ex c` are the indices process `c`
sends and those it receives, as pairs (partner, index).
* The set of indices that `c` sends to `c'` is the set that `c'` expects from `c`; in particular the
  messages have the same number of indices and one is empty iff the other one is.
* No process communicates with itself or with a process that does not exist.
* A process stores what it sends, and it expects an index from the process that stores it. -/
structure Matched (dec : List ℕ) (n : ℕ) (ex : ℕ → List (ℤ × ℤ) × List (ℤ × ℤ)) : Prop where
  same : ∀ c < dec.length, ∀ c' < dec.length,
    message (ex c).1 c' = message (ex c').2 c
  partners : ∀ c < dec.length, ∀ r i, (r, i) ∈ (ex c).1 ++ (ex c).2 →
    ∃ c' : ℕ, r = c' ∧ c' < dec.length ∧ c' ≠ c
  sent : ∀ c < dec.length, ∀ r i, (r, i) ∈ (ex c).1 → ∃ k : ℕ, i = k ∧ Owns1d dec n c k
  received : ∀ c < dec.length, ∀ r i, (r, i) ∈ (ex c).2 → ∃ k : ℕ, i = k ∧ Owns1d dec n r.toNat k

theorem mem_message (l : List (ℤ × ℤ)) (r i : ℤ) : i ∈ message l r ↔ (r, i) ∈ l := by
  unfold message
  simp

namespace Pole

theorem owner_owns (P : Pole) (h : P.Ok) (i r : ℤ) (ho : P.owner i = some r) :
    ∃ c k : ℕ, r = c ∧ i = k ∧ c < P.dec.length ∧ Owns1d P.dec (poleLength P.lmax P.b) c k := by
  obtain ⟨h0, h1, c, hc, rfl, h2, h3⟩ := (P.owner_iff h i r).1 ho
  refine ⟨c, i.toNat, rfl, by omega, hc, ?_⟩
  rw [owns1d_iff_bounds h.hdec hc]
  unfold at' idxMin at h2
  unfold at' idxMax at h3
  simp only at h2 h3
  omega

/-- A matched exchange from what every process sends and receives. -/
theorem matched_of {lmax b lmin : ℕ} {dec : List ℕ} (hb : b ≤ 2) (hl : lmin < lmax) (hm : lmax ≤ 29)
    (hdec : ValidDec dec (poleLength lmax b)) (ex : ℕ → List (ℤ × ℤ) × List (ℤ × ℤ))
    (Need : ℤ → ℤ → Prop)
    (hS : ∀ c < dec.length, ∀ r i, (r, i) ∈ (ex c).1 ↔
      (Pole.mk lmax b lmin dec c).idxMin ≤ i ∧ i ≤ (Pole.mk lmax b lmin dec c).idxMax ∧ r ≠ c ∧
        ((∃ s, (Pole.mk lmax b lmin dec c).owner s = some r ∧ Need s i)))
    (hR : ∀ c < dec.length, ∀ r i, (r, i) ∈ (ex c).2 ↔
      (Pole.mk lmax b lmin dec c).owner i = some r ∧ r ≠ c ∧
        ∃ s, (Pole.mk lmax b lmin dec c).idxMin ≤ s ∧ s ≤ (Pole.mk lmax b lmin dec c).idxMax ∧
          Need s i) :
    Matched dec (poleLength lmax b) ex := by
  have ok : ∀ c < dec.length, (Pole.mk lmax b lmin dec c).Ok := fun c hc => ⟨hb, hl, hm, hdec, hc⟩
  refine ⟨?_, ?_, ?_, ?_⟩
  · intro c hc c' hc'
    ext i
    rw [mem_message, mem_message, hS c hc, hR c' hc']
    have e1 := (Pole.mk lmax b lmin dec c).owner_self (ok c hc) i
    constructor
    · rintro ⟨h1, h2, h3, s, h4, h5⟩
      have e2 := (Pole.mk lmax b lmin dec c').owner_self (ok c' hc') s
      exact ⟨e1.2 ⟨h1, h2⟩, fun e => h3 e.symm, s, (e2.1 h4).1, (e2.1 h4).2, h5⟩
    · rintro ⟨h1, h3, s, h4, h5, h6⟩
      have e2 := (Pole.mk lmax b lmin dec c').owner_self (ok c' hc') s
      exact ⟨(e1.1 h1).1, (e1.1 h1).2, fun e => h3 e.symm, s, e2.2 ⟨h4, h5⟩, h6⟩
  · intro c hc r i hm
    rcases List.mem_append.1 hm with hm | hm
    · obtain ⟨_, _, h3, s, h4, _⟩ := (hS c hc r i).1 hm
      obtain ⟨c', _, rfl, _, h5, _⟩ := owner_owns _ (ok c hc) _ _ h4
      exact ⟨c', rfl, h5, by exact_mod_cast h3⟩
    · obtain ⟨h4, h3, _⟩ := (hR c hc r i).1 hm
      obtain ⟨c', _, rfl, _, h5, _⟩ := owner_owns _ (ok c hc) _ _ h4
      exact ⟨c', rfl, h5, by exact_mod_cast h3⟩
  · intro c hc r i hm
    obtain ⟨h1, h2, _⟩ := (hS c hc r i).1 hm
    obtain ⟨c', k, e, e', _, h6⟩ :=
      owner_owns _ (ok c hc) _ _ (((Pole.mk lmax b lmin dec c).owner_self (ok c hc) i).2 ⟨h1, h2⟩)
    have e : c = c' := by exact_mod_cast e
    exact ⟨k, e', by rw [e]; exact h6⟩
  · intro c hc r i hm
    obtain ⟨c', k, rfl, e', _, h6⟩ := owner_owns _ (ok c hc) _ _ ((hR c hc r i).1 hm).1
    exact ⟨k, e', by simpa using h6⟩

end Pole

/-- C29 for `exchangeData1d`, the exchange before hierarchizing with hat functions: for every level,
minimum level, boundary flag and decomposition of the pole, the loop of every process terminates and
what the processes send and expect is matched. -/
theorem C29_hierarchization_matched (lmax b lmin : ℕ) (dec : List ℕ) (hb : b ≤ 2) (hl : lmin < lmax)
    (hm : lmax ≤ 29) (hdec : ValidDec dec (nodal lmax b)) :
    ∃ ex : ℕ → List (ℤ × ℤ) × List (ℤ × ℤ),
      (∀ c < dec.length, (Pole.mk lmax b lmin dec c).exchangeHier = some (ex c)) ∧
      Matched dec (nodal lmax b) ex := by
  have spec := fun c (hc : c < dec.length) =>
    (Pole.mk lmax b lmin dec c).exchangeHier_spec ⟨hb, hl, hm, hdec, hc⟩
  refine ⟨fun c => ((Pole.mk lmax b lmin dec c).exchangeHier).getD ([], []), ?_, ?_⟩
  · intro c hc
    obtain ⟨S, R, e, -⟩ := spec c hc
    simp [e]
  · refine Pole.matched_of hb hl hm hdec _ (Pole.mk lmax b lmin dec 0).HierNeed ?_ ?_
    · intro c hc r i
      obtain ⟨S, R, e, e1, -⟩ := spec c hc
      simp only [e, Option.getD_some]
      exact e1 r i
    · intro c hc r i
      obtain ⟨S, R, e, -, e1⟩ := spec c hc
      simp only [e, Option.getD_some]
      exact e1 r i

/-- C29 for `exchangeData1dDehierarchization`, the exchange before dehierarchizing with hat
functions. -/
theorem C29_dehierarchization_matched (lmax b lmin : ℕ) (dec : List ℕ) (hb : b ≤ 2)
    (hl : lmin < lmax) (hm : lmax ≤ 29) (hdec : ValidDec dec (nodal lmax b)) :
    ∃ ex : ℕ → List (ℤ × ℤ) × List (ℤ × ℤ),
      (∀ c < dec.length, (Pole.mk lmax b lmin dec c).exchangeDehier = some (ex c)) ∧
      Matched dec (nodal lmax b) ex := by
  have spec := fun c (hc : c < dec.length) =>
    (Pole.mk lmax b lmin dec c).exchangeDehier_spec ⟨hb, hl, hm, hdec, hc⟩
  refine ⟨fun c => ((Pole.mk lmax b lmin dec c).exchangeDehier).getD ([], []), ?_, ?_⟩
  · intro c hc
    obtain ⟨S, R, e, -⟩ := spec c hc
    simp [e]
  · refine Pole.matched_of hb hl hm hdec _ (Pole.mk lmax b lmin dec 0).DehierNeed ?_ ?_
    · intro c hc r i
      obtain ⟨S, R, e, e1, -⟩ := spec c hc
      simp only [e, Option.getD_some]
      exact e1 r i
    · intro c hc r i
      obtain ⟨S, R, e, -, e1⟩ := spec c hc
      simp only [e, Option.getD_some]
      exact e1 r i

/-- C29 for `exchangeAllData1d`, the exchange for the mass conserving bases. -/
theorem C29_all_matched (lmax b lmin : ℕ) (dec : List ℕ) (hb : b ≤ 2)
    (hl : lmin < lmax) (hm : lmax ≤ 29) (hdec : ValidDec dec (nodal lmax b)) :
    Matched dec (nodal lmax b) fun c => (Pole.mk lmax b lmin dec c).exchangeAll := by
  have ok : ∀ c < dec.length, (Pole.mk lmax b lmin dec c).Ok := fun c hc => ⟨hb, hl, hm, hdec, hc⟩
  have spec := fun c (hc : c < dec.length) => (Pole.mk lmax b lmin dec c).exchangeAll_spec (ok c hc)
  refine ⟨?_, ?_, ?_, ?_⟩
  · intro c hc c' hc'
    ext i
    rw [mem_message, mem_message, (spec c hc).1, (spec c' hc').2]
    have e1 := (Pole.mk lmax b lmin dec c).owner_self (ok c hc) i
    constructor
    · rintro ⟨h1, h2, h3, -⟩
      exact ⟨e1.2 ⟨h1, h2⟩, fun e => h3 e.symm⟩
    · rintro ⟨h1, h3⟩
      exact ⟨(e1.1 h1).1, (e1.1 h1).2, fun e => h3 e.symm, by omega, by simpa using hc'⟩
  · intro c hc r i hm
    rcases List.mem_append.1 hm with hm | hm
    · obtain ⟨_, _, h3, h4, h5⟩ := ((spec c hc).1 r i).1 hm
      refine ⟨r.toNat, by omega, ?_, ?_⟩
      · simp only at h5; omega
      · simp only at h3; omega
    · obtain ⟨h4, h3⟩ := ((spec c hc).2 r i).1 hm
      obtain ⟨c', _, rfl, _, h5, _⟩ := Pole.owner_owns _ (ok c hc) _ _ h4
      exact ⟨c', rfl, h5, by exact_mod_cast h3⟩
  · intro c hc r i hm
    obtain ⟨h1, h2, _⟩ := ((spec c hc).1 r i).1 hm
    obtain ⟨c', k, e, e', _, h6⟩ :=
      Pole.owner_owns _ (ok c hc) _ _
        (((Pole.mk lmax b lmin dec c).owner_self (ok c hc) i).2 ⟨h1, h2⟩)
    have e : c = c' := by exact_mod_cast e
    exact ⟨k, e', by rw [e]; exact h6⟩
  · intro c hc r i hm
    obtain ⟨c', k, rfl, e', _, h6⟩ := Pole.owner_owns _ (ok c hc) _ _ (((spec c hc).2 r i).1 hm).1
    exact ⟨k, e', h6⟩

/-- The hypotheses of the C29 theorems for a pole of level 3 on three processes, and non-trivial
messages: to hierarchize, process 0 needs a point of process 1. -/
example : ValidDec [0, 3, 6] (nodal 3 2) ∧
    ((Pole.mk 3 2 0 [0, 3, 6] 0).exchangeHier.map fun e => message e.2 1) = some {4} ∧
    ((Pole.mk 3 2 0 [0, 3, 6] 1).exchangeHier.map fun e => message e.1 0) = some {4} ∧
    ((Pole.mk 3 2 0 [0, 3, 6] 2).exchangeDehier.map fun e => message e.2 0) = some {0} ∧
    ((Pole.mk 3 2 0 [0, 3, 6] 0).exchangeDehier.map fun e => message e.1 2) = some {0} := by
  refine ⟨⟨rfl, by decide, by decide⟩, ?_⟩
  decide +kernel

/-- Process 1 stores no points. `exchangeAllData1d` still enters it as a partner of process 0 with
an empty set of indices, for which `sendAndReceiveIndicesBlock` (l.118-128) dereferences the begin
iterator of the empty set: C29 needs non-empty partitions for these bases, the others do not enter
empty sets. -/
example : ValidDec [0, 4, 4] (nodal 3 2) ∧
    message (Pole.mk 3 2 0 [0, 4, 4] 0).exchangeAll.2 1 = ∅ ∧
    message (Pole.mk 3 2 0 [0, 4, 4] 1).exchangeAll.1 0 = ∅ := by
  refine ⟨⟨rfl, by decide, by decide⟩, ?_⟩
  decide +kernel

/-! ### C28: the distributed result is the serial result -/

variable {K : Type} [Field K]

/-- What C28 asks of the results for the pole `v`: process `c`, with arbitrary contents `junk` of its
scratch buffer, ends with its points of the result of one process that has all of `v` (and an
arbitrary scratch buffer). -/
def SameAsSerial (dist : ℕ → (ℕ → K) → Option (Buf K)) (serial : (ℕ → K) → Option (Buf K))
    (dec : List ℕ) (n : ℕ) : Prop :=
  ∀ c < dec.length, ∀ junk junk', ∃ m s lo hi, dist c junk = some m ∧ serial junk' = some s ∧
    lowerBound1d dec c = some lo ∧ upperBound1d dec n c = some hi ∧
    s.len = n ∧ m.len = hi - lo ∧ ∀ i, lo ≤ i → i < hi → m.val (i - lo) = s.val i

omit [Field K] in
theorem sameAsSerial_of {n : ℕ} {dec : List ℕ} (hdec : ValidDec dec n) (v : Buf K) (hv : v.len = n)
    (dist : ℕ → (ℕ → K) → Option (Buf K)) (serial : (ℕ → K) → Option (Buf K))
    (hlen : ∀ junk s, serial junk = some s → s.len = n)
    (hloc : ∀ c < dec.length, ∀ junk junk', ∃ m s,
      dist c junk = some m ∧ serial junk' = some s ∧ m.len = (slicePole dec v c).len ∧
      ∀ i < m.len, m.val i = s.val ((lowerBound1d dec c).getD 0 + i)) :
    SameAsSerial dist serial dec n := by
  intro c hc junk junk'
  obtain ⟨m, s, h1, h2, h3, h4⟩ := hloc c hc junk junk'
  obtain ⟨lo, hi, e1, e2, e3, e4⟩ := bounds1d hdec hc
  have e5 : m.len = hi - lo := by
    rw [h3]
    unfold slicePole
    simp [hv, e1, e2]
  refine ⟨m, s, lo, hi, h1, h2, e1, e2, hlen _ _ h2, e5, ?_⟩
  intro i h5 h6
  rw [h4 _ (by omega), e1]
  simp only [Option.getD_some]
  congr 1
  omega

/-- C28, hierarchization: for every level up to 29, boundary flag, decomposition and data, and for
every contents of the scratch buffers. On grids without boundary the code asserts `lmin = 0`. -/
theorem C28_hierarchize_hat (b lmax lmin : ℕ) (dec : List ℕ) (hb : b ≤ 2) (hm : lmax ≤ 29)
    (h0 : b = 0 → lmin = 0) (hdec : ValidDec dec (nodal lmax b)) (v : Buf K)
    (hv : v.len = nodal lmax b) :
    SameAsSerial (fun c junk => distHierPole .hat b lmax lmin dec c junk v)
      (fun junk => hierPole .hat b lmax lmin 0 [] junk v) dec (nodal lmax b) := by
  refine sameAsSerial_of hdec v hv _ _ ?_ ?_
  · intro junk s hs
    rcases Nat.lt_or_ge lmin lmax with hl | hl
    · obtain ⟨m, e1, e2, -⟩ := hierPole_hat_eq hb hl hm 0 [] junk v (by simp) (by rw [hv]; exact (Nat.zero_add _).le)
      rw [e1] at hs
      cases hs
      rw [e2, hv]
    · unfold hierPole at hs
      rw [if_pos hl] at hs
      cases hs
      exact hv
  · intro c hc junk junk'
    unfold distHierPole
    rcases Nat.lt_or_ge lmin lmax with hl | hl
    · obtain ⟨S, R, m, s, e1, e2, e3, e4, e5, e6⟩ :=
        (Pole.mk lmax b lmin dec c).hier_local ⟨hb, hl, hm, hdec, hc⟩ h0 junk junk' v hv
      refine ⟨m, s, ?_, e4, e5, e6⟩
      simp only [if_neg (show ¬ lmin ≥ lmax by omega), Basis.isHat, if_true, e1]
      simp only at e2
      simp only [Option.bind_eq_bind, Option.bind_some, e2]
      exact e3
    · refine ⟨_, v, if_pos hl, ?_, rfl, fun i _ => rfl⟩
      unfold hierPole
      rw [if_pos hl]

/-- C28, dehierarchization. -/
theorem C28_dehierarchize_hat (b lmax lmin : ℕ) (dec : List ℕ) (hb : b ≤ 2) (hm : lmax ≤ 29)
    (h0 : b = 0 → lmin = 0) (hdec : ValidDec dec (nodal lmax b)) (v : Buf K)
    (hv : v.len = nodal lmax b) :
    SameAsSerial (fun c junk => distDehierPole .hat b lmax lmin dec c junk v)
      (fun junk => dehierPole .hat b lmax lmin 0 [] junk v) dec (nodal lmax b) := by
  refine sameAsSerial_of hdec v hv _ _ ?_ ?_
  · intro junk s hs
    rcases Nat.lt_or_ge lmin lmax with hl | hl
    · obtain ⟨m, e1, e2, -⟩ := dehierPole_hat_eq hb hl hm 0 [] junk v (by simp) (by rw [hv]; exact (Nat.zero_add _).le)
      rw [e1] at hs
      cases hs
      rw [e2, hv]
    · unfold dehierPole at hs
      rw [if_pos hl] at hs
      cases hs
      exact hv
  · intro c hc junk junk'
    unfold distDehierPole
    rcases Nat.lt_or_ge lmin lmax with hl | hl
    · obtain ⟨S, R, m, s, e1, e2, e3, e4, e5, e6⟩ :=
        (Pole.mk lmax b lmin dec c).dehier_local ⟨hb, hl, hm, hdec, hc⟩ h0 junk junk' v hv
      refine ⟨m, s, ?_, e4, e5, e6⟩
      simp only [if_neg (show ¬ lmin ≥ lmax by omega), Basis.isHat, if_true, e1]
      simp only at e2
      simp only [Option.bind_eq_bind, Option.bind_some, e2]
      exact e3
    · refine ⟨_, v, if_pos hl, ?_, rfl, fun i _ => rfl⟩
      unfold dehierPole
      rw [if_pos hl]

/-- The same for the bases that exchange all data, on grids with boundary up to level 28. -/
theorem C28_mass_conserving (β : Basis) (hβ : β.massConserving) (b lmax lmin : ℕ) (dec : List ℕ)
    (hb : b = 1 ∨ b = 2) (hm : lmax ≤ 28) (hdec : ValidDec dec (nodal lmax b)) (v : Buf K)
    (hv : v.len = nodal lmax b) :
    SameAsSerial (fun c junk => distHierPole β b lmax lmin dec c junk v)
      (fun junk => hierPole β b lmax lmin 0 [] junk v) dec (nodal lmax b) ∧
    SameAsSerial (fun c junk => distDehierPole β b lmax lmin dec c junk v)
      (fun junk => dehierPole β b lmax lmin 0 [] junk v) dec (nodal lmax b) := by
  have hb2 : b ≤ 2 := by omega
  have hat : β.isHat = false := by cases β <;> first | rfl | (simp [Basis.massConserving] at hβ)
  have hmass : ∀ junk : ℕ → K, lmin < lmax → _ := fun junk hl =>
    massPole_eq hβ hb hl hm 0 [] junk v (by simp) (by rw [hv]; exact (Nat.zero_add _).le)
  refine ⟨sameAsSerial_of hdec v hv _ _ ?_ ?_, sameAsSerial_of hdec v hv _ _ ?_ ?_⟩
  · intro junk s hs
    rcases Nat.lt_or_ge lmin lmax with hl | hl
    · rw [(hmass junk hl).1] at hs
      cases hs
      exact hv
    · unfold hierPole at hs
      rw [if_pos hl] at hs
      cases hs
      exact hv
  · intro c hc junk junk'
    unfold distHierPole
    rcases Nat.lt_or_ge lmin lmax with hl | hl
    · obtain ⟨e2, ⟨m, s, e3, e4, e5, e6⟩, -⟩ :=
        (Pole.mk lmax b lmin dec c).mass_local ⟨hb2, hl, by simp only; omega, hdec, hc⟩ hβ hb hm
          junk junk' v hv
      refine ⟨m, s, ?_, e4, e5, e6⟩
      simp only [if_neg (show ¬ lmin ≥ lmax by omega), hat, Bool.false_eq_true, if_false]
      simp only at e2
      simp only [Option.bind_eq_bind, Option.bind_some, e2]
      exact e3
    · refine ⟨_, v, if_pos hl, ?_, rfl, fun i _ => rfl⟩
      unfold hierPole
      rw [if_pos hl]
  · intro junk s hs
    rcases Nat.lt_or_ge lmin lmax with hl | hl
    · rw [(hmass junk hl).2] at hs
      cases hs
      exact hv
    · unfold dehierPole at hs
      rw [if_pos hl] at hs
      cases hs
      exact hv
  · intro c hc junk junk'
    unfold distDehierPole
    rcases Nat.lt_or_ge lmin lmax with hl | hl
    · obtain ⟨e2, -, ⟨m, s, e3, e4, e5, e6⟩⟩ :=
        (Pole.mk lmax b lmin dec c).mass_local ⟨hb2, hl, by simp only; omega, hdec, hc⟩ hβ hb hm
          junk junk' v hv
      refine ⟨m, s, ?_, e4, e5, e6⟩
      simp only [if_neg (show ¬ lmin ≥ lmax by omega), hat, Bool.false_eq_true, if_false]
      simp only at e2
      simp only [Option.bind_eq_bind, Option.bind_some, e2]
      exact e3
    · refine ⟨_, v, if_pos hl, ?_, rfl, fun i _ => rfl⟩
      unfold dehierPole
      rw [if_pos hl]

/-- The hypotheses of the C28 theorems hold for a pole of level 2 on three processes of which one
stores no points, and the result is not the input. -/
example : ValidDec [0, 2, 2] (nodal 2 2) ∧ (⟨5, fun i => (i ^ 2 : ℚ)⟩ : Buf ℚ).len = nodal 2 2 ∧
    (distHierPole .hat 2 2 0 [0, 2, 2] 0 (fun _ => 77) (⟨5, fun i => (i ^ 2 : ℚ)⟩ : Buf ℚ)).map
      (fun d => (List.range d.len).map d.val) = some [0, -1] ∧
    (distHierPole .hat 2 2 0 [0, 2, 2] 1 (fun _ => 77) (⟨5, fun i => (i ^ 2 : ℚ)⟩ : Buf ℚ)).map
      (fun d => (List.range d.len).map d.val) = some [] ∧
    (distHierPole .hat 2 2 0 [0, 2, 2] 2 (fun _ => 77) (⟨5, fun i => (i ^ 2 : ℚ)⟩ : Buf ℚ)).map
      (fun d => (List.range d.len).map d.val) = some [-4, -1, 16] := by
  refine ⟨⟨rfl, by decide, by decide⟩, ?_⟩
  decide +kernel

/-- Without the assertion `lmin = 0` the hypothesis on grids without boundary is needed: the exchange
omits points of level at most `lmin` whereas the kernel hierarchizes all levels, so that the result
depends on the scratch buffer. -/
theorem C28_no_boundary_lmin_violated :
    (distHierPole .hat 0 3 2 [0, 2] 0 (fun _ => 0) (⟨7, fun _ => (1 : ℚ)⟩ : Buf ℚ)).map
      (fun d => (List.range d.len).map d.val) ≠
    (distHierPole .hat 0 3 2 [0, 2] 0 (fun _ => 8) (⟨7, fun _ => (1 : ℚ)⟩ : Buf ℚ)).map
      (fun d => (List.range d.len).map d.val) := by
  decide +kernel

end Verif
