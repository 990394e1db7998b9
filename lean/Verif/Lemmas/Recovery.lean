import Verif.Model.Recovery
import Mathlib.Data.List.Perm.Lattice
import Mathlib.Data.List.Flatten
import Mathlib.Data.List.Nodup

/-!
# Lemmas for the recovery of communicators
-/

namespace Verif.Recovery

lemma recvAny_eq {n : ℕ} {l l' : List ℕ} (h : l'.Perm l) (hn : l.length = n) :
    recvAny n l' = some l' := by
  unfold recvAny
  rw [if_pos (by rw [h.length_eq, hn])]

/-- The processes of a list of ranks. -/
def at' (comm ranks : List ℕ) : List ℕ := ranks.map fun r => comm.getD r 0

lemma procsAt_eq (comm : List ℕ) (ranks : List ℕ) (h : ∀ r ∈ ranks, r < comm.length) :
    procsAt comm ranks = some (at' comm ranks) := by
  unfold procsAt at'
  induction ranks with
  | nil => rfl
  | cons r ranks ih =>
    rw [List.mapM_cons, ih fun r hr => h r (by simp [hr]),
      List.getElem?_eq_getElem (h r (by simp))]
    simp [List.getD_eq_getElem?_getD, h r]

/-- Ranks that are a permutation of the ranks of the processes `ps`. -/
lemma at'_perm {comm ranks ps : List ℕ} (h : ranks.Perm (ps.map fun p => comm.idxOf p))
    (hps : ∀ p ∈ ps, p ∈ comm) :
    (∀ r ∈ ranks, r < comm.length) ∧ (at' comm ranks).Perm ps := by
  constructor
  · intro r hr
    obtain ⟨p, hp, rfl⟩ := List.mem_map.1 (h.mem_iff.1 hr)
    exact List.idxOf_lt_length_iff.2 (hps p hp)
  · refine (h.map fun r => comm.getD r 0).trans ?_
    rw [List.map_map]
    have : ps.map ((fun r => comm.getD r 0) ∘ fun p => comm.idxOf p) = ps.map id := by
      refine List.map_congr_left fun p hp => ?_
      have hlt := List.idxOf_lt_length_iff.2 (hps p hp)
      simp only [Function.comp_apply, id_eq]
      rw [List.getD_eq_getElem?_getD, List.getElem?_eq_getElem hlt, Option.getD_some,
        List.getElem_idxOf hlt]
    rw [this, List.map_id]

lemma mem_at' {comm ranks : List ℕ} (hc : comm.Nodup) (h : ∀ r ∈ ranks, r < comm.length) (r : ℕ) :
    r ∈ ranks ↔ ∃ p ∈ at' comm ranks, comm[r]? = some p := by
  unfold at'
  constructor
  · intro hr
    refine ⟨_, List.mem_map.2 ⟨r, hr, rfl⟩, ?_⟩
    rw [List.getD_eq_getElem?_getD, List.getElem?_eq_getElem (h r hr), Option.getD_some]
  · rintro ⟨p, hp, hr⟩
    obtain ⟨r', hr', rfl⟩ := List.mem_map.1 hp
    have h' := h r' hr'
    obtain ⟨hlt, he⟩ := List.getElem?_eq_some_iff.1 hr
    rw [List.getD_eq_getElem?_getD, List.getElem?_eq_getElem h', Option.getD_some] at he
    rw [(hc.getElem_inj_iff).1 he]
    exact hr'

/-- Splitting gives the list that is ordered by the key. -/
lemma split_eq (comm : List ℕ) (color : ℕ → Bool) (key : ℕ → ℕ) (w : List ℕ) (hc : comm.Nodup)
    (hw : w.Pairwise fun p q => key p < key q) (hm : ∀ p, p ∈ w ↔ p ∈ comm ∧ color p = true) :
    split comm color key = w := by
  unfold split
  have hnd : w.Nodup := by
    rw [List.nodup_iff_pairwise_ne]
    refine hw.imp fun {p q} h he => ?_
    rw [he] at h
    omega
  have hp : ((comm.filter color).insertionSort fun p q => key p ≤ key q).Perm w := by
    refine (List.perm_insertionSort _ _).trans ?_
    refine (List.perm_ext_iff_of_nodup (hc.filter _) hnd).2 fun p => ?_
    rw [List.mem_filter, hm]
  have : Std.Total fun p q : ℕ => key p ≤ key q := ⟨fun a b => by omega⟩
  have : IsTrans ℕ fun p q => key p ≤ key q := ⟨fun a b c h1 h2 => by omega⟩
  refine List.Perm.eq_of_pairwise ?_ (List.pairwise_insertionSort _ _) (hw.imp fun h => h.le) hp
  intro a b ha hb h1 h2
  have ha' := hp.mem_iff.1 ha
  obtain ⟨i, hi, rfl⟩ := List.mem_iff_getElem.1 ha'
  obtain ⟨j, hj, rfl⟩ := List.mem_iff_getElem.1 hb
  rw [List.pairwise_iff_getElem] at hw
  rcases Nat.lt_trichotomy i j with h | h | h
  · have := hw i j hi hj h
    omega
  · subst h
    rfl
  · have := hw j i hj hi h
    omega

/-- The position in a list of groups of the same size. -/
lemma idxOf_div (np : ℕ) (hnp : 0 < np) (gs : List (List ℕ)) (rest : List ℕ)
    (hlen : ∀ g ∈ gs, g.length = np) (hnd : gs.flatten.Nodup) (i : ℕ) (hi : i < gs.length) (p : ℕ)
    (hp : p ∈ gs[i]) : (gs.flatten ++ rest).idxOf p / np = i := by
  induction gs generalizing i with
  | nil => simp at hi
  | cons g gs ih =>
    rw [List.flatten_cons] at hnd ⊢
    rw [List.append_assoc]
    have hg := hlen g (by simp)
    cases i with
    | zero =>
      simp only [List.getElem_cons_zero] at hp
      rw [List.idxOf_append_of_mem hp]
      have := List.idxOf_lt_length_iff.2 hp
      exact Nat.div_eq_of_lt (by omega)
    | succ i =>
      simp only [List.getElem_cons_succ] at hp
      have hi' : i < gs.length := by simpa using hi
      have hpf : p ∈ gs.flatten := List.mem_flatten.2 ⟨_, List.getElem_mem hi', hp⟩
      have hpg : p ∉ g := fun h => (List.nodup_append.1 hnd).2.2 p h p hpf rfl
      rw [List.idxOf_append_of_notMem hpg, hg, Nat.add_comm, Nat.add_div_right _ hnp,
        ih (fun g hg => hlen g (by simp [hg])) (List.nodup_append.1 hnd).2.1 i hi' hp]

lemma idxOf_last (gs : List ℕ) (m : ℕ) (h : m ∉ gs) : (gs ++ [m]).idxOf m = gs.length := by
  rw [List.idxOf_append_of_notMem h]
  simp

lemma length_flatten_const (np : ℕ) (gs : List (List ℕ)) (hlen : ∀ g ∈ gs, g.length = np) :
    gs.flatten.length = gs.length * np := by
  induction gs with
  | nil => simp
  | cons g gs ih =>
    rw [List.flatten_cons, List.length_append, ih fun g hg => hlen g (by simp [hg]),
      hlen g (by simp), List.length_cons, Nat.succ_mul, Nat.add_comm]

/-- The positions in a list without duplicates ascend. -/
lemma pairwise_idxOf {w : List ℕ} (h : w.Nodup) : w.Pairwise fun p q => w.idxOf p < w.idxOf q := by
  rw [List.pairwise_iff_getElem]
  intro i j hi hj hij
  rwa [h.idxOf_getElem, h.idxOf_getElem]

lemma lookup_zip (xs ys : List ℕ) (hx : xs.Nodup) (i : ℕ) (hi : i < xs.length) (hy : i < ys.length) :
    (xs.zip ys).lookup xs[i] = some ys[i] := by
  induction xs generalizing ys i with
  | nil => simp at hi
  | cons x xs ih =>
    cases ys with
    | nil => simp at hy
    | cons y ys =>
      rw [List.zip_cons_cons, List.lookup_cons]
      cases i with
      | zero => simp
      | succ i =>
        rw [List.nodup_cons] at hx
        have hne : xs[i]'(by simpa using hi) ≠ x := fun h =>
          hx.1 (by rw [← h]; exact List.getElem_mem _)
        simp only [List.getElem_cons_succ]
        rw [beq_eq_false_iff_ne.2 hne]
        exact ih ys hx.2 i (by simpa using hi) (by simpa using hy)

lemma lookup_zip_none (xs ys : List ℕ) (p : ℕ) (h : p ∉ xs) : (xs.zip ys).lookup p = none := by
  induction xs generalizing ys with
  | nil => simp
  | cons x xs ih =>
    cases ys with
    | nil => simp
    | cons y ys =>
      rw [List.mem_cons, not_or] at h
      rw [List.zip_cons_cons, List.lookup_cons, beq_eq_false_iff_ne.2 h.1]
      exact ih ys h.2

end Verif.Recovery
