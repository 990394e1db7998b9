import Verif.Lemmas.Conjoint
import Verif.Props.Classical
import Verif.Props.PartitionDOF

/-!
# Subspaces a system shares with other systems (C96)

`getConjointSet` is meant to find the subspaces of a part of a combination scheme that other systems, which
have the other parts, need as well.
-/

namespace Verif.Conjoint

/-- A scheme whose grids have the dimension of `lmin` and are not coarser. -/
def ValidScheme (scheme : List (List ℕ × ℚ)) (lmin : List ℕ) : Prop :=
  scheme ≠ [] ∧ ∀ g ∈ scheme, VecLe lmin g.1

/-- C96: the vector contains no subspace twice (so that the degrees of freedom of every subspace are counted
once), and contains everything below its members. -/
theorem C96_counted_once (scheme : List (List ℕ × ℚ)) (lmin : List ℕ) (hv : ValidScheme scheme lmin) :
    ∃ C, getConjointSet scheme lmin = some C ∧ C.Nodup ∧ ∀ t ∈ C, ∀ k,
      List.Forall₂ (fun ki ti => 1 ≤ ki ∧ ki ≤ ti) k t → k ∈ C := by
  obtain ⟨C, h1, h2, h3⟩ := getConjointSet_eq scheme lmin hv.1 fun g hg => (hv.2 g hg).length_eq.symm
  refine ⟨C, h1, h2, fun t ht k hk => ?_⟩
  obtain ⟨m, m1, m2, m3⟩ := (h3 t).mp ht
  refine (h3 k).mpr ⟨m, m1, m2, .inr ?_⟩
  rcases m3 with rfl | m3
  · exact ((C01_downSet t).1 k).mpr hk
  · rw [(C01_downSet m).1] at m3 ⊢
    clear h1 h2 h3 m1 m2 ht
    induction m3 generalizing k with
    | nil => cases hk; exact .nil
    | cons h1 _ ih =>
      cases hk with
      | cons h2 h3 => exact .cons ⟨h2.1, le_trans h2.2 h1.2⟩ (ih _ h3)

example : ValidScheme [([1, 3], 1), ([2, 2], 1), ([1, 2], -1)] [1, 1] := by
  refine ⟨by simp, ?_⟩
  simp

/-- C96: the degrees of freedom per process add up to the total number, and the total is the sum over the
different shared subspaces, for grids with boundary within the reference level. -/
theorem C96_partitioned_partial (scheme : List (List ℕ × ℚ)) (lmin ref : List ℕ) (dec : List (List ℕ))
    (hv : ValidScheme scheme lmin) (hpos : ∀ x ∈ lmin, 1 ≤ x) (hle : ∀ g ∈ scheme, VecLe g.1 ref)
    (h28 : ∀ r ∈ ref, r ≤ 28) (hdec : List.Forall₂ (fun r d => ValidDec d (2 ^ r + 1)) ref dec) :
    ∃ r, getPartitionedNumDOFSGConjoint scheme lmin ref dec = .ok r ∧ (∀ x ∈ r, 0 ≤ x) ∧
      getNumDOFSGConjoint scheme lmin = .ok r.sum := by
  obtain ⟨C, h1, h2, h3⟩ := getConjointSet_eq scheme lmin hv.1 fun g hg => (hv.2 g hg).length_eq.symm
  have hval : PartitionDOF.Valid C ref dec := by
    refine ⟨h28, hdec, fun t ht => ?_⟩
    obtain ⟨m, m1, -, m3⟩ := (h3 t).mp ht
    obtain ⟨a, ha, m1⟩ := List.mem_flatMap.mp m1
    obtain ⟨g, hg, rfl⟩ := List.mem_map.mp ha
    have hg := (List.mem_filter.mp hg).1
    obtain ⟨d, hd, hp⟩ := mem_visits.mp m1
    have hlg := (vecLe_iff _ _).mp (hv.2 g hg)
    have hgr := (vecLe_iff _ _).mp (hle g hg)
    obtain ⟨p0, p1, p2, p3⟩ := (onPole_iff (by omega)).mp hp
    have hm : List.Forall₂ (fun l r => 1 ≤ l ∧ l ≤ r) m ref := by
      rw [List.forall₂_iff_get]
      refine ⟨by omega, fun i hi hi' => ?_⟩
      have e1 : m.getD i 0 = m.get ⟨i, hi⟩ := List.getD_eq_getElem _ _ hi
      have e2 : ref.getD i 0 = ref.get ⟨i, hi'⟩ := List.getD_eq_getElem _ _ hi'
      have e3 : 1 ≤ lmin.getD i 0 := by
        rw [List.getD_eq_getElem _ _ (by omega)]
        exact hpos _ (List.getElem_mem _)
      have e4 := hlg.2 i
      have e5 := hgr.2 i
      rw [← e1, ← e2]
      by_cases hid : i = d
      · subst hid; omega
      · rw [p3 i hid]; omega
    rcases m3 with rfl | m3
    · exact hm
    · rw [(C01_downSet m).1] at m3
      clear * - m3 hm
      induction m3 generalizing ref with
      | nil => cases hm; exact .nil
      | cons h1 _ ih =>
        cases hm with
        | cons h2 h3 => exact .cons ⟨h1.1, le_trans h1.2 h2.2⟩ (ih _ h3)
  obtain ⟨r, r1, r2, r3⟩ := PartitionDOF.C58_sum_partial C ref dec hval
  refine ⟨r, ?_, r2, ?_⟩
  · rw [getPartitionedNumDOFSGConjoint, h1]; exact r1
  · rw [getNumDOFSGConjoint, h1]; exact r3

example : ValidScheme [([1, 3], 1), ([2, 2], 1), ([1, 2], -1)] [1, 1] ∧
    (∀ g ∈ [([1, 3], (1 : ℚ)), ([2, 2], 1), ([1, 2], -1)], VecLe g.1 [3, 3]) ∧
    List.Forall₂ (fun r d => ValidDec d (2 ^ r + 1)) [3, 3] [[0, 4], [0]] := by
  refine ⟨⟨by simp, by simp⟩, by simp, .cons ⟨rfl, by decide, by decide⟩ (.cons ⟨rfl, by decide, by decide⟩ .nil)⟩

/-- The grids whose coefficient is 1, up to rounding errors. -/
def unitGrids (scheme : List (List ℕ × ℚ)) : List (List ℕ) :=
  (scheme.filter fun g => decide (|g.2 - 1| < 1 / 10 ^ 9)).map Prod.fst

lemma actives_eq (scheme : List (List ℕ × ℚ)) : actives scheme = unitGrids scheme := rfl

/-- C96, the part that holds for any scheme: if the grids with coefficient 1 are pairwise different and
incomparable, every subspace below such a grid of this system and below a grid of another system that is
incomparable to the ones here is in the conjoint set. Missing: subspaces of the other grids of this system
(`C96_complete_violated`). -/
theorem C96_complete_partial (scheme : List (List ℕ × ℚ)) (lmin : List ℕ) (hv : ValidScheme scheme lmin)
    (hanti : (unitGrids scheme).Pairwise fun a b => ¬ VecLe a b ∧ ¬ VecLe b a)
    (a b : List ℕ) (ha : a ∈ unitGrids scheme) (hb : VecLe lmin b)
    (hinc : ∀ a ∈ unitGrids scheme, ¬ VecLe a b ∧ ¬ VecLe b a)
    (k : List ℕ) (hpos : ∀ x ∈ k, 1 ≤ x) (hka : VecLe k a) (hkb : VecLe k b) :
    ∃ C, getConjointSet scheme lmin = some C ∧ k ∈ C := by
  rw [← actives_eq] at *
  obtain ⟨C, h1, -, h3⟩ := getConjointSet_eq scheme lmin hv.1 fun g hg => (hv.2 g hg).length_eq.symm
  have hle : ∀ a ∈ actives scheme, VecLe lmin a := by
    intro a ha
    obtain ⟨g, hg, rfl⟩ := List.mem_map.mp ha
    exact hv.2 g (List.mem_filter.mp hg).1
  have hnd : (actives scheme).Nodup := hanti.imp fun {x y} (h : ¬ VecLe x y ∧ ¬ VecLe y x) (hc : x = y) =>
    h.1 (hc ▸ VecLe.refl x)
  have hF : Front lmin (actives scheme) fun _ => True := by
    refine ⟨fun a ha b hb _ _ hab => ?_, fun _ _ _ _ _ _ _ _ _ _ => trivial⟩
    by_contra hne
    have : Std.Symm fun a b => ¬ VecLe a b ∧ ¬ VecLe b a := ⟨fun _ _ h => ⟨h.2, h.1⟩⟩
    exact (hanti.forall ha hb hne).1 hab
  obtain ⟨m, m1, m2, m3⟩ := complete_core lmin (actives scheme) hnd hle _ hF b k hb
    (fun a ha _ => hinc a ha) hkb (deficiency a b) a ha trivial hka (le_refl _)
  refine ⟨C, h1, (h3 k).mpr ⟨m, m1, m2, .inr ?_⟩⟩
  rw [(C01_downSet m).1]
  clear * - m3 hpos
  induction m3 with
  | nil => exact .nil
  | cons h1 _ ih =>
    rw [List.forall_mem_cons] at hpos
    exact .cons ⟨hpos.1, h1⟩ (ih hpos.2)

example : ValidScheme [([1, 4], 1), ([3, 2], 1), ([1, 2], -1)] [1, 1] ∧
    ((unitGrids [([1, 4], 1), ([3, 2], 1), ([1, 2], -1)]).Pairwise fun a b => ¬ VecLe a b ∧ ¬ VecLe b a) ∧
    [3, 2] ∈ unitGrids [([1, 4], 1), ([3, 2], 1), ([1, 2], -1)] ∧
    (∀ a ∈ unitGrids [([1, 4], 1), ([3, 2], 1), ([1, 2], -1)], ¬ VecLe a [4, 1] ∧ ¬ VecLe [4, 1] a) := by
  have h : unitGrids [([1, 4], 1), ([3, 2], 1), ([1, 2], -1)] = [[1, 4], [3, 2]] := by decide +kernel
  rw [h]
  refine ⟨⟨by simp, ?_⟩, ?_, ?_, ?_⟩ <;> simp

/-- The grids and coefficients of a scheme. -/
def gridsOf (s : Scheme) : List (List ℕ × ℚ) := s.combiSpaces.zip (s.coefficients.map Int.cast)

/-- A finest grid of a scheme. -/
def Finest (s : Scheme) (g : List ℕ) : Prop := g ∈ s.combiSpaces ∧ ∀ h ∈ s.combiSpaces, h.sum ≤ g.sum

lemma classical_facts (lmin lmax : List ℕ) (hne : lmax ≠ []) (hpos : ∀ x ∈ lmin, 1 ≤ x)
    (hlt : List.Forall₂ (· < ·) lmin lmax) (fuel : ℕ) (s : Scheme)
    (hs : createClassicalCombischeme fuel lmin lmax = some s) :
    ∃ m, IsMinDiff lmax (toInt lmin) m ∧ VecLe lmin (lmax.map (· - m)) ∧
      ((gridsOf s).map Prod.fst).Nodup ∧
      (∀ g ∈ gridsOf s, g.1 ∈ s.combiSpaces ∧
        (g.1.sum = (lmax.map (· - m)).sum + m → isActive g.2 = true)) ∧
      ∀ g, g ∈ s.combiSpaces ↔ VecLe (lmax.map (· - m)) g ∧
        ∃ p < lmax.length, g.sum + p = (lmax.map (· - m)).sum + m := by
  have hvalid : ValidMinMax lmin lmax := ⟨hne, hpos, hlt.imp fun _ _ h => le_of_lt h⟩
  have hlen := hlt.length_eq
  have hF : freeOf lmax lmin lmax = lmax := freeOf_of_lt lmin lmax lmax hlt rfl
  have hG : freeOf lmax lmin lmin = lmin := freeOf_of_lt lmin lmax lmin hlt hlen
  obtain ⟨m, hmd, hd, hn, hsp, hco, hlm, hlev, hTlen, hTnd, hTall, hTF, hGr⟩ :=
    classical_result lmin lmax hvalid (insertOk_of_lt lmin lmax hlt) (by rw [hF]; exact hne)
      fuel s hs
  rw [hF, hG] at *
  have hnemm : lmin ≠ lmax := by
    rintro rfl
    cases hlt with
    | nil => exact hne rfl
    | cons h _ => omega
  have h63 := C63_one_coefficient_per_grid_partial lmin lmax hvalid (insertOk_of_lt lmin lmax hlt) hnemm
    fuel s hs
  refine ⟨m, hmd, hGr, by rw [gridsOf, List.map_fst_zip (by simp [h63.1])]; exact h63.2, ?_,
    C03_classical_grids lmin lmax hne hpos hlt m hmd fuel s hs⟩
  intro g hg
  refine ⟨List.of_mem_zip (show (g.1, g.2) ∈ _ from hg) |>.1, fun hsum => ?_⟩
  rw [gridsOf, hsp, hco, List.map_map, List.zip_map', List.mem_map] at hg
  obtain ⟨t, ht, rfl⟩ := hg
  have htl : t.length = lmax.length := by
    rw [classicalSpaces_eq_filter, List.mem_filter] at ht
    exact hTlen t ht.1
  simp only [mergeDims_of_lt lmin lmax t hlt htl] at hsum
  have : classicalCoeff ((lmax.map (· - m)).sum + m) lmax.length t = 1 := by
    unfold classicalCoeff levelSum
    rw [hsum]
    simp
  simp [this, isActive]

lemma part_valid {s : Scheme} {part : List (List ℕ × ℚ)} (hsub : part.Sublist (gridsOf s))
    {lmin r : List ℕ} (hr : VecLe lmin r) (hne : part ≠ []) (hg : ∀ g ∈ s.combiSpaces, VecLe r g) :
    ValidScheme part lmin :=
  ⟨hne, fun g h => hr.trans (hg _ (List.of_mem_zip (show (g.1, g.2) ∈ _ from hsub.mem h)).1)⟩

lemma sum_set (l : List ℕ) (i x : ℕ) (hi : i < l.length) : (l.set i x).sum + l.getD i 0 = l.sum + x := by
  induction l generalizing i with
  | nil => simp at hi
  | cons a l ih =>
    cases i with
    | zero => simp; omega
    | succ i =>
      have := ih i (by simpa using hi)
      simp only [List.set_cons_succ, List.sum_cons, List.getD_cons_succ]
      omega

lemma onPole_sum {lmin m a : List ℕ} {k : ℕ} (hk : k < a.length) (h : OnPole lmin m k a) :
    m.sum < a.sum := by
  obtain ⟨p0, p1, p2, p3⟩ := (onPole_iff hk).mp h
  have e : a = m.set k (a.getD k 0) := by
    apply List.ext_getElem (by simp [p0])
    intro i hi hi'
    have := getD_set m k i (a.getD k 0) (by omega)
    rw [List.getD_eq_getElem _ _ hi'] at this
    rw [this]
    split_ifs with h
    · subst h; exact (List.getD_eq_getElem _ _ hi).symm
    · rw [p3 i h]; exact (List.getD_eq_getElem _ _ hi).symm
  have := sum_set m k (a.getD k 0) (by omega)
  rw [← e] at this
  omega

/-- C96 for a part of a classical scheme: every subspace below one of its finest grids and below a finest
grid of another part is in the conjoint set, although in three and more dimensions coarser grids have
coefficient 1 as well. Missing: subspaces of coarser grids whose finer grids are in other parts
(`C96_complete_violated`). -/
theorem C96_classical_complete_partial (lmin lmax : List ℕ) (hne : lmax ≠ []) (hpos : ∀ x ∈ lmin, 1 ≤ x)
    (hlt : List.Forall₂ (· < ·) lmin lmax) (fuel : ℕ) (s : Scheme)
    (hs : createClassicalCombischeme fuel lmin lmax = some s) (part : List (List ℕ × ℚ))
    (hsub : part.Sublist (gridsOf s)) (a b : List ℕ) (ha : a ∈ part.map Prod.fst) (ha' : Finest s a)
    (hb : b ∉ part.map Prod.fst) (hb' : Finest s b)
    (k : List ℕ) (hk : ∀ x ∈ k, 1 ≤ x) (hka : VecLe k a) (hkb : VecLe k b) :
    ∃ C, getConjointSet part lmin = some C ∧ k ∈ C := by
  obtain ⟨m, hmd, hr, hnd, hact, hmem⟩ := classical_facts lmin lmax hne hpos hlt fuel s hs
  have hpart : part ≠ [] := by rintro rfl; simp at ha
  have hv := part_valid hsub hr hpart fun g hg => ((hmem g).mp hg).1
  have hlen := hlt.length_eq
  have hle : ∀ a ∈ actives part, VecLe lmin a := by
    intro a ha
    obtain ⟨g, hg, rfl⟩ := List.mem_map.mp ha
    exact hv.2 g (List.mem_filter.mp hg).1
  have hnda : (actives part).Nodup :=
    ((List.filter_sublist (p := fun g : List ℕ × ℚ => isActive g.2)).map Prod.fst).nodup ((hsub.map _).nodup hnd)
  have hmax : ∀ g ∈ s.combiSpaces, g.sum ≤ (lmax.map (· - m)).sum + m := by
    intro g hg
    obtain ⟨-, p, -, h⟩ := (hmem g).mp hg
    omega
  have hin : ∀ c ∈ actives part, c ∈ s.combiSpaces := by
    intro c hc
    obtain ⟨g, hg, rfl⟩ := List.mem_map.mp hc
    exact (hact g (hsub.mem (List.mem_filter.mp hg).1)).1
  -- the finest grids have the largest possible level sum
  have hfin : ∀ g, Finest s g → g.sum = (lmax.map (· - m)).sum + m := by
    intro g hg
    have hd : 0 < lmax.length := List.length_pos_iff.mpr hne
    have h0 : (lmax.map (· - m)).set 0 ((lmax.map (· - m)).getD 0 0 + m) ∈ s.combiSpaces := by
      rw [hmem]
      constructor
      · rw [vecLe_iff]
        refine ⟨by simp, fun i => ?_⟩
        rw [getD_set _ _ _ _ (by simpa using hd)]
        split_ifs with h
        · subst h; omega
        · exact le_refl _
      · refine ⟨0, hd, ?_⟩
        have := sum_set (lmax.map (· - m)) 0 ((lmax.map (· - m)).getD 0 0 + m) (by simpa using hd)
        omega
    have h1 := hg.2 _ h0
    have h2 := hmax g hg.1
    have h3 := sum_set (lmax.map (· - m)) 0 ((lmax.map (· - m)).getD 0 0 + m) (by simpa using hd)
    omega
  have hF : Front lmin (actives part) fun g => g.sum = (lmax.map (· - m)).sum + m := by
    refine ⟨fun a _ b _ h1 h2 h3 => h3.eq_of_sum (by omega), ?_⟩
    intro a ha hsa j hj c hc k hk hp
    have hcl := (hle c hc).length_eq
    have hal := (hle a ha).length_eq
    have h1 := onPole_sum (by omega) hp
    have h2 := sum_set a j (a.getD j 0 - 1) (by omega)
    have h3 := hmax c (hin c hc)
    omega
  have haA : a ∈ actives part := by
    obtain ⟨g, hg, rfl⟩ := List.mem_map.mp ha
    exact List.mem_map.mpr ⟨g, List.mem_filter.mpr ⟨hg, (hact g (hsub.mem hg)).2 (hfin _ ha')⟩, rfl⟩
  have hbs := hfin b hb'
  have hinc : ∀ c ∈ actives part, c.sum = (lmax.map (· - m)).sum + m → ¬ VecLe c b ∧ ¬ VecLe b c := by
    intro c hc hcs
    have hcb : c ≠ b := by
      rintro rfl
      obtain ⟨g, hg, rfl⟩ := List.mem_map.mp hc
      exact hb (List.mem_map.mpr ⟨g, (List.mem_filter.mp hg).1, rfl⟩)
    exact ⟨fun h => hcb (h.eq_of_sum (by omega)), fun h => hcb (h.eq_of_sum (by omega)).symm⟩
  obtain ⟨C, h1, -, h3⟩ := getConjointSet_eq part lmin hv.1 fun g hg => (hv.2 g hg).length_eq.symm
  obtain ⟨t, m1, m2, m3⟩ := complete_core lmin (actives part) hnda hle _ hF b k
    (hr.trans ((hmem b).mp hb'.1).1) hinc hkb (deficiency a b) a haA (hfin a ha') hka (le_refl _)
  refine ⟨C, h1, (h3 k).mpr ⟨t, m1, m2, .inr ?_⟩⟩
  rw [(C01_downSet t).1]
  clear * - m3 hk
  induction m3 with
  | nil => exact .nil
  | cons h1 _ ih =>
    rw [List.forall_mem_cons] at hk
    exact .cons ⟨hk.1, h1⟩ (ih hk.2)

/-- C96 for a part of a classical scheme, the other direction: if all dimensions are refined equally, only
subspaces are in the conjoint set that are below a grid of this part and below a finest grid of another
part. Missing: other schemes (`C96_needed_violated`). -/
theorem C96_classical_needed_partial (lmin : List ℕ) (m : ℕ) (hm : 0 < m) (hne : lmin ≠ [])
    (hpos : ∀ x ∈ lmin, 1 ≤ x) (fuel : ℕ) (s : Scheme)
    (hs : createClassicalCombischeme fuel lmin (lmin.map (· + m)) = some s) (part : List (List ℕ × ℚ))
    (hsub : part.Sublist (gridsOf s)) (hpart : part ≠ []) :
    ∃ C, getConjointSet part lmin = some C ∧ ∀ k ∈ C,
      (∃ a ∈ part.map Prod.fst, VecLe k a) ∧ ∃ b ∉ part.map Prod.fst, Finest s b ∧ VecLe k b := by
  have hlt : List.Forall₂ (· < ·) lmin (lmin.map (· + m)) := by
    rw [List.forall₂_map_right_iff]
    exact List.forall₂_same.mpr fun x _ => by omega
  obtain ⟨m', hmd, hr, hnd, hact, hmem⟩ :=
    classical_facts lmin (lmin.map (· + m)) (by simpa using hne) hpos hlt fuel s hs
  have hmm : m' = m := by
    refine isMinDiff_unique hmd ⟨?_, 0, ?_, ?_, ?_⟩
    · intro i h1 h2
      simp [toInt]
    · simpa using List.length_pos_iff.mpr hne
    · simpa [toInt] using List.length_pos_iff.mpr hne
    · simp [toInt]
  subst hmm
  have hrl : (lmin.map (· + m')).map (· - m') = lmin := by
    rw [List.map_map]
    conv_rhs => rw [← List.map_id lmin]
    apply List.map_congr_left
    intro x _
    simp
  rw [hrl] at hact hmem
  have hv := part_valid hsub (VecLe.refl lmin) hpart fun g hg => ((hmem g).mp hg).1
  obtain ⟨C, h1, -, h3⟩ := getConjointSet_eq part lmin hv.1 fun g hg => (hv.2 g hg).length_eq.symm
  refine ⟨C, h1, fun k hk => ?_⟩
  obtain ⟨t, t1, t2, t3⟩ := (h3 k).mp hk
  have hkt : VecLe k t := by
    rcases t3 with rfl | t3
    · exact VecLe.refl _
    · rw [(C01_downSet t).1] at t3
      exact t3.imp fun _ _ h => h.2
  obtain ⟨a, ha, tv⟩ := List.mem_flatMap.mp t1
  obtain ⟨ga, hga, rfl⟩ := List.mem_map.mp ha
  have hga' := (List.mem_filter.mp hga).1
  have hla := (vecLe_iff _ _).mp (hv.2 ga hga')
  obtain ⟨d, hd, hp⟩ := mem_visits.mp tv
  have hsum := onPole_sum (by omega) hp
  obtain ⟨p0, p1, p2, p3⟩ := (onPole_iff (by omega)).mp hp
  have hta : VecLe t ga.1 := by
    rw [vecLe_iff]
    refine ⟨p0, fun i => ?_⟩
    by_cases hi : i = d
    · subst hi; omega
    · exact le_of_eq (p3 i hi)
  have hlt' : VecLe lmin t := by
    rw [vecLe_iff]
    refine ⟨by omega, fun i => ?_⟩
    by_cases hi : i = d
    · subst hi; exact p1
    · rw [p3 i hi]; exact hla.2 i
  have hmax : ∀ g ∈ s.combiSpaces, g.sum ≤ lmin.sum + m' := by
    intro g hg
    obtain ⟨-, p, -, h⟩ := (hmem g).mp hg
    omega
  have hlenA : ∀ a ∈ actives part, a.length = lmin.length := by
    intro a ha
    obtain ⟨g, hg, rfl⟩ := List.mem_map.mp ha
    exact (hv.2 g (List.mem_filter.mp hg).1).length_eq.symm
  obtain ⟨e, he, hno⟩ : ∃ e < lmin.length, ∀ a ∈ actives part, ¬ OnPole lmin t e a := by
    by_contra hc
    push Not at hc
    have := dim_le_count lmin t (actives part) hlenA hc
    unfold allVisits at t2
    omega
  have hsa := hmax _ (hact ga (hsub.mem hga')).1
  obtain ⟨b, hb⟩ : ∃ b, b = t.set e (t.getD e 0 + (lmin.sum + m' - t.sum)) := ⟨_, rfl⟩
  have htl : e < t.length := by omega
  have hbs := sum_set t e (t.getD e 0 + (lmin.sum + m' - t.sum)) htl
  rw [← hb] at hbs
  have hbd : ∀ i, b.getD i 0 = if i = e then t.getD e 0 + (lmin.sum + m' - t.sum) else t.getD i 0 := fun i => by
    rw [hb, getD_set _ _ _ _ htl]
  have hbe := hbd e
  rw [if_pos rfl] at hbe
  have hbl : b.length = t.length := by simp [hb]
  have htb : VecLe t b := by
    rw [vecLe_iff]
    refine ⟨hbl.symm, fun i => ?_⟩
    rw [hbd]
    split_ifs with h
    · subst h; omega
    · exact le_refl _
  have hbm : b ∈ s.combiSpaces := by
    rw [hmem]
    refine ⟨hlt'.trans htb, 0, ?_, by omega⟩
    simpa using List.length_pos_iff.mpr hne
  refine ⟨⟨ga.1, List.mem_map.mpr ⟨ga, hga', rfl⟩, hkt.trans hta⟩, b, ?_, ⟨hbm, ?_⟩, hkt.trans htb⟩
  · intro hbp
    obtain ⟨gb, hgb, rfl⟩ := List.mem_map.mp hbp
    refine hno gb.1 (List.mem_map.mpr ⟨gb, List.mem_filter.mpr ⟨hgb, ?_⟩, rfl⟩) ?_
    · exact (hact gb (hsub.mem hgb)).2 (by omega)
    · rw [onPole_iff (by omega)]
      refine ⟨hbl.symm, ((vecLe_iff _ _).mp hlt').2 e, by omega, fun i hi => ?_⟩
      rw [hbd, if_neg hi]
  · intro h hh
    have := hmax h hh
    omega

/-- A scheme in three dimensions, where grids of the coarsest diagonal have coefficient 1 as well. -/
example : ∃ s, createClassicalCombischeme 100 [1, 1, 1] ([1, 1, 1].map (· + 2)) = some s ∧
    [([1, 1, 1], (1 : ℚ)), ([1, 1, 3], 1), ([1, 2, 2], 1)].Sublist (gridsOf s) ∧
    Finest s [1, 2, 2] ∧ Finest s [2, 2, 1] := by
  refine ⟨_, rfl, by decide +kernel, ⟨by decide +kernel, by decide +kernel⟩, by decide +kernel,
    by decide +kernel⟩

/-- C96 is violated by the parts that `createThirdLevelScheme` makes of a scheme: half of the classical
scheme with levels from 1 to 3 in two dimensions contains the grid (2,1) with coefficient -1, whose subspace
(2,1) is also below the grids (2,2) and (3,1) of the other half. It is in neither conjoint set. -/
theorem C96_complete_violated :
    ∃ s p q, createClassicalCombischeme 100 [1, 1] [3, 3] = some s ∧
      createThirdLevelScheme (gridsOf s) 0 2 [1/2, 1/2] = some p ∧
      createThirdLevelScheme (gridsOf s) 1 2 [1/2, 1/2] = some q ∧
      (∃ a ∈ p.map Prod.fst, VecLe [2, 1] a) ∧ (∃ b ∈ q.map Prod.fst, VecLe [2, 1] b) ∧
      ∃ C D, getConjointSet p [1, 1] = some C ∧ getConjointSet q [1, 1] = some D ∧
        [2, 1] ∉ C ∧ [2, 1] ∉ D := by
  refine ⟨_, [([1, 2], -1), ([1, 3], 1), ([2, 1], -1)], [([2, 2], 1), ([3, 1], 1)], rfl,
    by decide +kernel, by decide +kernel, ⟨[2, 1], by simp, by simp⟩, ⟨[2, 2], by simp, by simp⟩,
    [[1, 1], [1, 2]], [[1, 1], [1, 2]], by decide +kernel, by decide +kernel, by decide, by decide⟩

/-- C96 is violated if a dimension is not refined ("TODO actually, we need to check for the effective
dimension", l.438): the whole scheme is on one system and nothing has to be exchanged, but all subspaces
below its only grid are in the conjoint set. -/
theorem C96_needed_violated :
    ∃ s, createClassicalCombischeme 100 [1, 1] [1, 3] = some s ∧ gridsOf s = [([1, 3], 1)] ∧
      getConjointSet (gridsOf s) [1, 1] = some [[1, 1], [1, 2]] := by
  refine ⟨_, rfl, by decide +kernel, by decide +kernel⟩

end Verif.Conjoint
