import Verif.Props.Levels1d

/-!
# Lemmas on the enumeration of the points of a subspace
-/

namespace Verif

/-- All vectors with entries from the given lists, first entry running fastest. -/
def prodList : List (List ℕ) → List (List ℕ)
  | [] => [[]]
  | a :: as => (prodList as).flatMap fun t => a.map (· :: t)

theorem mem_prodList (as : List (List ℕ)) (v : List ℕ) :
    v ∈ prodList as ↔ List.Forall₂ (· ∈ ·) v as := by
  induction as generalizing v with
  | nil => simp [prodList]
  | cons a as ih =>
    simp only [prodList, List.mem_flatMap, List.mem_map, List.forall₂_cons_right_iff]
    constructor
    · rintro ⟨t, ht, x, hx, rfl⟩
      exact ⟨x, t, hx, (ih t).1 ht, rfl⟩
    · rintro ⟨x, t, hx, ht, rfl⟩
      exact ⟨t, (ih t).2 ht, x, hx, rfl⟩

theorem fgPointsRec_append (ds : List (ℕ × List ℕ)) (o : ℕ) (is : List ℕ) (s : ℕ) :
    fgPointsRec (ds ++ [(o, is)]) s = (fgPointsRec ds s).flatMap fun t => is.map (t + o * ·) := by
  induction ds generalizing s with
  | nil => simp [fgPointsRec, List.map_eq_flatMap]
  | cons d ds ih =>
    obtain ⟨o', is'⟩ := d
    simp only [List.cons_append, fgPointsRec, ih, List.flatMap_assoc]

theorem fgPointsRec_eq (oneD : List (List ℕ)) (offs : List ℕ) (h : offs.length = oneD.length)
    (s : ℕ) :
    fgPointsRec (offs.zip oneD).reverse s =
      (prodList oneD).map fun v => s + (List.zipWith (· * ·) v offs).sum := by
  induction oneD generalizing offs with
  | nil =>
    rw [List.length_nil, List.length_eq_zero_iff] at h
    subst h
    simp [fgPointsRec, prodList]
  | cons a oneD ih =>
    cases offs with
    | nil => simp at h
    | cons o offs =>
      rw [List.zip_cons_cons, List.reverse_cons, fgPointsRec_append, ih offs (by simpa using h),
        prodList, List.flatMap_map, List.map_flatMap]
      congr 1
      funext t
      rw [List.map_map]
      apply List.map_congr_left
      intro x _
      simp only [Function.comp_apply, List.zipWith_cons_cons, List.sum_cons]
      ring

theorem fgPointsRec_seq (sizes : List ℕ) (oneD : List (List ℕ)) (h : sizes.length = oneD.length) :
    fgPointsRec ((tensorOffsets sizes).zip oneD).reverse 0 =
      (prodList oneD).map (sequentialIndex sizes) := by
  rw [fgPointsRec_eq _ _ (by simp [h])]
  apply List.map_congr_left
  intro v _
  rw [zero_add, sequentialIndex, foldl_add_eq, zero_add]

/-- Sorted 1-d lists within the extents give ascending linear indices. -/
theorem prodList_sorted (sizes : List ℕ) (oneD : List (List ℕ))
    (h : List.Forall₂ (fun e a => a.Pairwise (· < ·) ∧ ∀ x ∈ a, x < e) sizes oneD) :
    ((prodList oneD).map (sequentialIndex sizes)).Pairwise (· < ·) := by
  induction h with
  | nil => simp [prodList]
  | cons h1 h2 ih =>
    rename_i e a es as
    rw [prodList, List.map_flatMap, List.pairwise_flatMap]
    constructor
    · intro t _
      rw [List.map_map, List.pairwise_map]
      refine h1.1.imp fun {x y} hxy => ?_
      simp only [Function.comp_apply, sequentialIndex_cons]
      omega
    · rw [List.pairwise_map] at ih
      refine ih.imp fun {t t'} htt => ?_
      intro x hx y hy
      simp only [List.map_map, List.mem_map, Function.comp_apply] at hx hy
      obtain ⟨i, hi, rfl⟩ := hx
      obtain ⟨j, hj, rfl⟩ := hy
      rw [sequentialIndex_cons, sequentialIndex_cons]
      have := h1.2 i hi
      nlinarith

theorem prodList_nil_of_mem (oneD : List (List ℕ)) (h : [] ∈ oneD) : prodList oneD = [] := by
  induction oneD with
  | nil => simp at h
  | cons a as ih =>
    rcases List.mem_cons.1 h with h | h
    · subst h
      simp [prodList]
    · simp [prodList, ih h]

/-- mapping each coordinate -/
theorem prodList_map {φ : List (ℕ → ℕ)} {oneD : List (List ℕ)} (h : φ.length = oneD.length) :
    prodList (List.zipWith List.map φ oneD) =
      (prodList oneD).map fun v => List.zipWith (fun f x => f x) φ v := by
  induction oneD generalizing φ with
  | nil =>
    rw [List.length_nil, List.length_eq_zero_iff] at h
    subst h
    simp [prodList]
  | cons a as ih =>
    cases φ with
    | nil => simp at h
    | cons f φ =>
      rw [List.zipWith_cons_cons, prodList, prodList, ih (by simpa using h), List.flatMap_map,
        List.map_flatMap]
      congr 1
      funext t
      rw [List.map_map, List.map_map]
      rfl

/-- one-dimensional lists of `getFGPointsOfSubspace` -/
def oneDLists (g : List LocalDim) (l : List ℕ) : List (List ℕ) :=
  List.zipWith (fun d li => get1dIndicesLocal d.level d.boundary d.first d.size li) g l

/-- The enumeration is the list of linear indices of the product of the 1-d lists. -/
theorem getFGPointsOfSubspace_eq (g : List LocalDim) (l : List ℕ) (h : l.length = g.length) :
    getFGPointsOfSubspace g l = (prodList (oneDLists g l)).map (sequentialIndex (g.map (·.size))) := by
  have hlen : (g.map (·.size)).length = (oneDLists g l).length := by simp [oneDLists, h]
  unfold getFGPointsOfSubspace
  split
  · rename_i hany
    rw [prodList_nil_of_mem]
    · rfl
    · rw [List.any_eq_true] at hany
      obtain ⟨b, hb, hbt⟩ := hany
      obtain ⟨i, hi, rfl⟩ := List.mem_iff_getElem.1 hb
      simp only [List.getElem_zipWith, id, decide_eq_true_eq] at hbt
      simp only [List.length_zipWith] at hi
      rw [oneDLists, List.mem_iff_getElem]
      refine ⟨i, by simp; omega, ?_⟩
      simp only [List.getElem_zipWith, get1dIndicesLocal]
      rw [if_pos hbt]
  · simp only
    split
    · exact fgPointsRec_seq _ _ hlen
    · rename_i hnum
      rw [foldl_mul_eq, one_mul] at hnum
      have : ((oneDLists g l).map List.length).prod = 0 := by
        unfold oneDLists; omega
      rw [List.prod_eq_zero_iff] at this
      obtain ⟨a, ha, ha0⟩ := List.mem_map.1 this
      rw [List.length_eq_zero_iff] at ha0
      subst ha0
      rw [prodList_nil_of_mem _ ha]
      rfl

end Verif
