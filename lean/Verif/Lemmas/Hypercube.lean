import Verif.Lemmas.LevelSets
import Mathlib.Data.List.Chain

/-! Helper lemmas about `HypercubeDownSetGenerator`. -/

namespace Verif

/-- odometer step from the front, with carry -/
def odo : List ℕ → List ℕ → List ℕ × Bool
  | u :: us, c :: cs =>
    if (odo us cs).2 then
      if c < u then ((c + 1) :: (odo us cs).1, false) else (1 :: (odo us cs).1, true)
    else (c :: (odo us cs).1, false)
  | _, _ => ([], true)

theorem odo_length (us cs : List ℕ) (h : us.length = cs.length) :
    (odo us cs).1.length = us.length := by
  induction us generalizing cs with
  | nil => cases cs <;> simp [odo]
  | cons u us ih =>
    cases cs with
    | nil => simp at h
    | cons c cs =>
      have := ih cs (by simpa using h)
      simp only [odo]
      split
      · split <;> simp [this]
      · simp [this]

theorem odo_true (us cs : List ℕ) (h : us.length = cs.length) (hc : (odo us cs).2 = true) :
    (odo us cs).1 = List.replicate us.length 1 := by
  induction us generalizing cs with
  | nil => cases cs <;> simp [odo]
  | cons u us ih =>
    cases cs with
    | nil => simp at h
    | cons c cs =>
      have ih := ih cs (by simpa using h)
      simp only [odo] at hc ⊢
      split
      · rename_i h1
        split
        · rename_i h2
          simp [h1, h2] at hc
        · simp [ih h1, List.replicate_succ]
      · rename_i h1; simp [h1] at hc

/-- appending further (more significant) digits to the reversed odometer -/
theorem hypercubeIncr_append (us cs vs ds : List ℕ) (h : us.length = cs.length) :
    hypercubeIncr (us.reverse ++ vs) (cs.reverse ++ ds) =
      (odo us cs).1.reverse ++ (if (odo us cs).2 then hypercubeIncr vs ds else ds) := by
  induction us generalizing cs vs ds with
  | nil =>
    cases cs with
    | nil => simp [odo]
    | cons c cs => simp at h
  | cons u us ih =>
    cases cs with
    | nil => simp at h
    | cons c cs =>
      have h' : us.length = cs.length := by simpa using h
      simp only [List.reverse_cons, List.append_assoc]
      rw [ih cs _ _ h']
      simp only [odo]
      by_cases h1 : (odo us cs).2 = true
      · by_cases h2 : c < u
        · simp [h1, h2, hypercubeIncr]
        · simp [h1, h2, hypercubeIncr]
      · simp [h1]

theorem hypercubeIncr_reverse (us cs : List ℕ) (h : us.length = cs.length) :
    (hypercubeIncr us.reverse cs.reverse).reverse = (odo us cs).1 := by
  have := hypercubeIncr_append us cs [] [] h
  simp only [List.append_nil] at this
  rw [this]
  simp [hypercubeIncr]

/-- recursion of the down set on the first entry -/
theorem getDownSetRec_prefix (rest fixed : List ℕ) :
    getDownSetRec rest fixed = (getDownSetRec rest []).map (fixed ++ ·) := by
  induction rest generalizing fixed with
  | nil => simp [getDownSetRec]
  | cons m rest ih =>
    simp only [getDownSetRec, List.map_flatMap]
    congr 1
    funext i
    rw [ih (fixed ++ [i]), ih ([] ++ [i])]
    simp [Function.comp_def]

theorem getDownSet_cons (m : ℕ) (rest : List ℕ) :
    getDownSet (m :: rest) = (List.range' 1 m).flatMap fun i => (getDownSet rest).map (i :: ·) := by
  simp only [getDownSet, getDownSetRec]
  congr 1
  funext i
  rw [getDownSetRec_prefix]
  simp

theorem getDownSet_ne_nil (us : List ℕ) (hpos : ∀ u ∈ us, 1 ≤ u) : getDownSet us ≠ [] := by
  induction us with
  | nil => simp [getDownSet, getDownSetRec]
  | cons u us ih =>
    have h1 := ih fun x hx => hpos x (by simp [hx])
    have h2 := hpos u (by simp)
    obtain ⟨u, rfl⟩ := Nat.exists_eq_add_of_le' h2
    rw [getDownSet_cons, List.range'_succ, List.flatMap_cons]
    simp [h1]

theorem length_of_mem_getDownSet {us d : List ℕ} (h : d ∈ getDownSet us) :
    d.length = us.length := by
  rw [getDownSet, mem_getDownSetRec] at h
  obtain ⟨t, rfl, h⟩ : ∃ t, d = t ∧ List.Forall₂ (fun a b => 1 ≤ a ∧ a ≤ b) t us := by
    simpa using h
  exact h.length_eq

/-- the down set is a chain of odometer steps, from all ones to the corner -/
theorem odo_chain (us : List ℕ) (hpos : ∀ u ∈ us, 1 ≤ u) :
    List.IsChain (fun d d' => odo us d = (d', false)) (getDownSet us) ∧
      (getDownSet us).head? = some (List.replicate us.length 1) ∧
      (getDownSet us).getLast? = some us ∧ (odo us us).2 = true := by
  induction us with
  | nil => simp [getDownSet, getDownSetRec, odo]
  | cons u us ih =>
    obtain ⟨hc, hh, hl, ho⟩ := ih fun x hx => hpos x (by simp [hx])
    have hu := hpos u (by simp)
    have hne : getDownSet us ≠ [] := by rintro h; simp [h] at hh
    have block : ∀ i, List.IsChain (fun d d' => odo (u :: us) d = (d', false))
        ((getDownSet us).map (i :: ·)) := by
      intro i
      rw [List.isChain_map]
      refine hc.imp ?_
      intro a b hab
      simp [odo, hab]
    have main : ∀ k s, s + k = u + 1 → 0 < k →
        List.IsChain (fun d d' => odo (u :: us) d = (d', false))
          ((List.range' s k).flatMap fun i => (getDownSet us).map (i :: ·)) ∧
        ((List.range' s k).flatMap fun i => (getDownSet us).map (i :: ·)).head? =
          some (s :: List.replicate us.length 1) ∧
        ((List.range' s k).flatMap fun i => (getDownSet us).map (i :: ·)).getLast? =
          some (u :: us) := by
      intro k
      induction k with
      | zero => intro s _ h; omega
      | succ k ihk =>
        intro s hs _
        rw [List.range'_succ, List.flatMap_cons]
        by_cases hk : k = 0
        · subst hk
          have : s = u := by omega
          subst this
          refine ⟨by simpa using block s, ?_, ?_⟩
          · simp [hh]
          · simp [hl]
        · obtain ⟨h1, h2, h3⟩ := ihk (s + 1) (by omega) (by omega)
          refine ⟨?_, ?_, ?_⟩
          · rw [List.isChain_append]
            refine ⟨block s, h1, ?_⟩
            intro x hx y hy
            rw [h2] at hy
            simp [hl] at hx hy
            subst hx hy
            have hsu : s < u := by omega
            simp [odo, ho, hsu, odo_true us us rfl ho]
          · simp [List.head?_append, hh]
          · rw [List.getLast?_append, h3]
            rfl
    obtain ⟨h1, h2, h3⟩ := main u 1 (by omega) (by omega)
    rw [← getDownSet_cons] at h1 h2 h3
    refine ⟨h1, ?_, h3, ?_⟩
    · rw [h2]; simp [List.replicate_succ]
    · simp [odo, ho]

/-- running the generator along a chain of `hypercubeNext` steps -/
theorem hypercubeRun_chain (u a : List ℕ) (D : List (List ℕ))
    (h : List.IsChain (fun d d' => hypercubeNext u d = d') (a :: D)) :
    hypercubeRun u D.length a = D := by
  induction D generalizing a with
  | nil => rfl
  | cons b D ih =>
    rw [List.isChain_cons_cons] at h
    simp only [List.length_cons, hypercubeRun, h.1, ih b h.2]

theorem hypercubeFinished_iff (u c : List ℕ) :
    hypercubeFinished u c = true ↔ c = List.replicate c.length (u.headD 0) := by
  rw [hypercubeFinished, List.eq_replicate_iff]
  simp

/-- the first step from the initial state -/
theorem odo_start (us : List ℕ) (hpos : ∀ u ∈ us, 1 ≤ u) (hne : us ≠ []) :
    odo us (hypercubeStart us) = (List.replicate us.length 1, false) := by
  induction us with
  | nil => simp at hne
  | cons u us ih =>
    by_cases h : us = []
    · subst h
      have := hpos u (by simp)
      have : 0 < u := by omega
      simp [hypercubeStart, odo, this]
    · have := ih (fun x hx => hpos x (by simp [hx])) h
      have hl : us.length ≠ 0 := by simpa using h
      obtain ⟨n, hn⟩ := Nat.exists_eq_succ_of_ne_zero hl
      have hs : hypercubeStart (u :: us) = 1 :: hypercubeStart us := by
        simp [hypercubeStart, hn, List.replicate_succ]
      rw [hs, odo, this]
      simp [List.replicate_succ]

theorem start_not_finished (us : List ℕ) (hpos : ∀ u ∈ us, 1 ≤ u) (hne : us ≠ []) :
    hypercubeFinished us (hypercubeStart us) = false := by
  cases us with
  | nil => simp at hne
  | cons u us =>
    have := hpos u (by simp)
    have : (0 == u) = false := by simp; omega
    simp [hypercubeFinished, hypercubeStart, this]

theorem hypercubeNext_of_odo (us c d : List ℕ) (hlen : us.length = c.length)
    (hf : hypercubeFinished us c = false) (h : odo us c = (d, false)) :
    hypercubeNext us c = d := by
  simp [hypercubeNext, hf, hypercubeIncr_reverse us c hlen, h]

theorem start_length (us : List ℕ) (hne : us ≠ []) :
    us.length = (hypercubeStart us).length := by
  cases us with
  | nil => simp at hne
  | cons u us => simp [hypercubeStart]

end Verif
