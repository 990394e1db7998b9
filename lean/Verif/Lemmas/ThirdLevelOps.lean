import Verif.Lemmas.ThirdLevel
import Mathlib.Tactic.Ring
import Mathlib.Data.List.Forall2

/-!
# The operations between two systems and the third-level manager
-/

namespace Verif

variable {α R : Type}

section
variable {cap sz : ℕ} {P : TLState α R → Prop} {i : Bool} {a b : SysProg α R} {N : MgrProg α}

/-- Data goes from the initiator to the other system. -/
theorem tl_forward_io (hcap : 0 < cap) (p : Payload α) (f g : TLMsg α → SysProg α R)
    (hf : f (.size (p.bytes sz + 1)) = .recv g)
    (h : Inevitable (TLStep cap sz) P (tlst i a (g (.block p)) N [] [] [] [])) :
    Inevitable (TLStep cap sz) P (tlst i (.send (.size (p.bytes sz + 1)) (.send (.block p) a))
      (.recv f) (forwardData sz i (!i) N) [] [] [] []) := by
  refine tl_up_i hcap _ rfl ?_
  refine tl_down_o hcap f _ rfl ?_
  rw [hf]
  simp only [ne_eq, Nat.add_eq_zero_iff, one_ne_zero, and_false, not_false_eq_true, if_true]
  refine tl_up_i hcap _ rfl ?_
  simp only [if_true]
  exact tl_down_o hcap g _ rfl h

/-- Data goes from the other system to the initiator. -/
theorem tl_forward_oi (hcap : 0 < cap) (p : Payload α) (f g : TLMsg α → SysProg α R)
    (hf : f (.size (p.bytes sz + 1)) = .recv g)
    (h : Inevitable (TLStep cap sz) P (tlst i (g (.block p)) b N [] [] [] [])) :
    Inevitable (TLStep cap sz) P (tlst i (.recv f)
      (.send (.size (p.bytes sz + 1)) (.send (.block p) b)) (forwardData sz (!i) i N) [] [] [] []) := by
  refine tl_up_o hcap _ rfl ?_
  refine tl_down_i hcap f _ rfl ?_
  rw [hf]
  simp only [ne_eq, Nat.add_eq_zero_iff, one_ne_zero, and_false, not_false_eq_true, if_true]
  refine tl_up_o hcap _ rfl ?_
  simp only [if_true]
  exact tl_down_i hcap g _ rfl h

/-- The initiator sends values, the other system receives them. -/
theorem tl_values_io (hcap : 0 < cap) (hsz : 0 < sz) (n : ℕ) (xs : List α) (hn : xs.length = n)
    (k : List α → SysProg α R) (M : MgrProg α) (c : TLMsg α → MgrProg α) (hM : M.unfold sz = .recv i c)
    (hc : c .sendingData = forwardData sz i (!i) N)
    (h : Inevitable (TLStep cap sz) P (tlst i a (k xs) N [] [] [] [])) :
    Inevitable (TLStep cap sz) P (tlst i (tlSendData sz (.values xs) a) (tlRecvValues sz n k) M
      [] [] [] []) := by
  subst hn
  unfold tlSendData tlRecvValues
  refine tl_up_i hcap c hM ?_
  rw [hc]
  refine tl_forward_io hcap _ _ (onValues xs.length k) ?_ ?_
  · simp only [Payload.bytes, Nat.add_sub_cancel, Nat.mul_div_cancel _ hsz, if_true]
  · simpa [onValues, onSizes] using h

/-- The other system sends values, the initiator receives them. -/
theorem tl_values_oi (hcap : 0 < cap) (hsz : 0 < sz) (n : ℕ) (xs : List α) (hn : xs.length = n)
    (k : List α → SysProg α R) (M : MgrProg α) (c : TLMsg α → MgrProg α)
    (hM : M.unfold sz = .recv (!i) c) (hc : c .sendingData = forwardData sz (!i) i N)
    (h : Inevitable (TLStep cap sz) P (tlst i (k xs) b N [] [] [] [])) :
    Inevitable (TLStep cap sz) P (tlst i (tlRecvValues sz n k) (tlSendData sz (.values xs) b) M
      [] [] [] []) := by
  subst hn
  unfold tlSendData tlRecvValues
  refine tl_up_o hcap c hM ?_
  rw [hc]
  refine tl_forward_oi hcap _ _ (onValues xs.length k) ?_ ?_
  · simp only [Payload.bytes, Nat.add_sub_cancel, Nat.mul_div_cancel _ hsz, if_true]
  · simpa [onValues, onSizes] using h

/-- The initiator sends sizes, the other system receives them. -/
theorem tl_sizes_io (hcap : 0 < cap) (n : ℕ) (xs : List ℕ) (hn : xs.length = n)
    (k : List ℕ → SysProg α R) (M : MgrProg α) (c : TLMsg α → MgrProg α) (hM : M.unfold sz = .recv i c)
    (hc : c .sendingData = forwardData sz i (!i) N)
    (h : Inevitable (TLStep cap sz) P (tlst i a (k xs) N [] [] [] [])) :
    Inevitable (TLStep cap sz) P (tlst i (tlSendData sz (.sizes xs) a) (tlRecvSizes n k) M
      [] [] [] []) := by
  subst hn
  unfold tlSendData tlRecvSizes
  refine tl_up_i hcap c hM ?_
  rw [hc]
  refine tl_forward_io hcap _ _ (onSizes xs.length k) ?_ ?_
  · simp only [Payload.bytes, Nat.add_sub_cancel, Nat.mul_div_cancel _ (show 0 < 4 by decide), if_true]
  · simpa [onValues, onSizes] using h

/-- The other system sends sizes, the initiator receives them. -/
theorem tl_sizes_oi (hcap : 0 < cap) (n : ℕ) (xs : List ℕ) (hn : xs.length = n)
    (k : List ℕ → SysProg α R) (M : MgrProg α) (c : TLMsg α → MgrProg α)
    (hM : M.unfold sz = .recv (!i) c) (hc : c .sendingData = forwardData sz (!i) i N)
    (h : Inevitable (TLStep cap sz) P (tlst i (k xs) b N [] [] [] [])) :
    Inevitable (TLStep cap sz) P (tlst i (tlRecvSizes n k) (tlSendData sz (.sizes xs) b) M
      [] [] [] []) := by
  subst hn
  unfold tlSendData tlRecvSizes
  refine tl_up_o hcap c hM ?_
  rw [hc]
  refine tl_forward_oi hcap _ _ (onSizes xs.length k) ?_ ?_
  · simp only [Payload.bytes, Nat.add_sub_cancel, Nat.mul_div_cancel _ (show 0 < 4 by decide), if_true]
  · simpa [onValues, onSizes] using h

end

/-- The loop of the combination. -/
theorem tl_combine_loop {cap sz : ℕ} {P : TLState α R → Prop} {i : Bool} (hcap : 0 < cap)
    (hsz : 0 < sz) (add : α → α → α) (systems : List Bool) (la lb : List (ℕ × List α))
    (hl : List.Forall₂ (fun p q => p.1 = q.1 ∧ 0 < p.1 ∧ p.2.length = p.1 ∧ q.2.length = p.1) la lb)
    (acca accb : List (List α)) (ka kb : List (List α) → SysProg α R)
    (h : Inevitable (TLStep cap sz) P
      (tlst i (ka (acca ++ List.zipWith (fun p q => List.zipWith add q.2 p.2) la lb))
        (kb (accb ++ List.zipWith (fun p q => List.zipWith add q.2 p.2) la lb))
        (.combining systems i) [] [] [] [])) :
    Inevitable (TLStep cap sz) P
      (tlst i (exchangeDsgusLoop sz add true la acca ka) (exchangeDsgusLoop sz add false lb accb kb)
        (.combining systems i) [] [] [] []) := by
  induction hl generalizing acca accb with
  | nil => simpa [exchangeDsgusLoop] using h
  | @cons p q la lb hpq _ ih =>
    obtain ⟨n, x⟩ := p
    obtain ⟨n', y⟩ := q
    obtain ⟨h1, h2, h3, h4⟩ := hpq
    simp only at h1 h2 h3 h4
    subst h1
    simp only [exchangeDsgusLoop, exchangeDsgu, Bool.false_eq_true, if_false, if_true]
    rw [if_neg (by omega), if_neg (by omega)]
    refine tl_values_io hcap hsz n x h3 _ _ _ rfl rfl ?_
    refine tl_values_oi hcap hsz n _ (by simp [h3, h4]) _ _ _ rfl rfl ?_
    apply ih
    simpa using h

/-- A round of `combineThirdLevel`. -/
theorem tl_combine {cap sz : ℕ} {P : TLState α R → Prop} (hcap : 0 < cap) (hsz : 0 < sz)
    (add : α → α → α) (hcomm : ∀ x y, add x y = add y x) (numGrids : Bool → ℕ)
    (sizePerWorker : Bool → List ℕ) (data : Bool → ℕ → ℕ → List α)
    (hl : List.Forall₂ (fun p q => p.1 = q.1 ∧ 0 < p.1 ∧ p.2.length = p.1 ∧ q.2.length = p.1)
      (dsgusInOrder (numGrids false) (sizePerWorker false) (data false))
      (dsgusInOrder (numGrids true) (sizePerWorker true) (data true)))
    (k : Bool → TLResult α → SysProg α R)
    (h : Inevitable (TLStep cap sz) P ⟨fun s => k s (.dsgus (List.zipWith
      (fun p q => List.zipWith add p.2 q.2)
      (dsgusInOrder (numGrids false) (sizePerWorker false) (data false))
      (dsgusInOrder (numGrids true) (sizePerWorker true) (data true)))), .loop [false, true],
      fun _ => [], fun _ => []⟩) :
    Inevitable (TLStep cap sz) P ⟨fun s => combineThirdLevelProg sz add (numGrids s)
      (sizePerWorker s) (data s) (k s), .loop [false, true], fun _ => [], fun _ => []⟩ := by
  unfold combineThirdLevelProg
  refine tl_round hcap (fun _ => .readyToCombine) _ fun i => ?_
  simp only [processMessage, processCombination, List.length_cons, List.length_nil, ne_eq,
    Nat.reduceAdd, not_true_eq_false, if_false]
  refine tl_down_i hcap _ _ rfl ?_
  refine tl_mgr_o _ rfl ?_
  refine tl_down_o hcap _ _ rfl ?_
  have key : ∀ (res : List (List α)),
      res = List.zipWith (fun p q => List.zipWith add p.2 q.2)
        (dsgusInOrder (numGrids false) (sizePerWorker false) (data false))
        (dsgusInOrder (numGrids true) (sizePerWorker true) (data true)) →
      Inevitable (TLStep cap sz) P (tlst i (.send .ready (k i (.dsgus ([] ++ res))))
        (.send .ready (k (!i) (.dsgus ([] ++ res)))) (.combining [false, true] i) [] [] [] []) := by
    intro res hres
    refine tl_up_i hcap _ rfl ?_
    refine tl_up_o hcap _ rfl ?_
    rw [hres]
    convert h using 1
    unfold tlst
    congr 1 <;> funext s <;> cases s <;> cases i <;> rfl
  cases i
  · refine tl_combine_loop hcap hsz add _ _ _ hl [] [] _ _ (key _ ?_)
    congr 1
    funext p q
    exact List.zipWith_comm_of_comm hcomm
  · refine tl_combine_loop hcap hsz add _ _ _ ?_ [] [] _ _ (key _ ?_)
    · exact (List.Forall₂.flip hl).imp fun p q hpq => ⟨hpq.1.symm, by rw [← hpq.1]; exact hpq.2.1,
        by rw [← hpq.1]; exact hpq.2.2.2, by rw [← hpq.1]; exact hpq.2.2.1⟩
    · rw [List.zipWith_comm]
      rfl

/-- A round of `combineThirdLevelFileBased`. -/
theorem tl_combineFile {cap sz : ℕ} {P : TLState α R → Prop} (hcap : 0 < cap)
    (k : Bool → TLResult α → SysProg α R)
    (h : Inevitable (TLStep cap sz) P ⟨fun s => k s .nothing, .loop [false, true],
      fun _ => [], fun _ => []⟩) :
    Inevitable (TLStep cap sz) P ⟨fun s => combineFileProg (k s), .loop [false, true],
      fun _ => [], fun _ => []⟩ := by
  unfold combineFileProg
  refine tl_round hcap (fun _ => .readyToCombineFile) _ fun i => ?_
  simp only [processMessage, processCombinationFile, List.length_cons, List.length_nil, ne_eq,
    Nat.reduceAdd, not_true_eq_false, if_false]
  refine tl_down_i hcap _ _ rfl ?_
  refine tl_mgr_o _ rfl ?_
  refine tl_down_o hcap _ _ rfl ?_
  refine tl_up_i hcap _ rfl ?_
  refine tl_up_o hcap _ rfl ?_
  convert h using 1
  unfold tlst
  congr 1 <;> funext s <;> cases s <;> cases i <;> rfl

/-- Minimum or maximum. -/
def sizeOp (extra : Bool) (a b : ℕ) : ℕ := if extra then min a b else max a b

theorem sizeOp_comm (extra : Bool) (a b : ℕ) : sizeOp extra a b = sizeOp extra b a := by
  unfold sizeOp
  rw [min_comm, max_comm]

/-- A round of `unifySubspaceSizesThirdLevel`, up to the comparison of the sums. -/
theorem tl_unify_raw {cap sz : ℕ} {P : TLState α R → Prop} (hcap : 0 < cap) (extra : Bool)
    (workers : Bool → List (List ℕ))
    (hcount : (workers false).flatten.length = (workers true).flatten.length)
    (hassert : ∀ p ∈ (workers false).flatten.zip (workers true).flatten,
      p.1 = p.2 ∨ p.1 = 0 ∨ p.2 = 0)
    (reduced : List ℕ) (hreduced : reduced =
      List.zipWith (sizeOp extra) (workers false).flatten (workers true).flatten)
    (k : Bool → TLResult α → SysProg α R)
    (h : Inevitable (TLStep cap sz) P ⟨fun s =>
      if extra = true ∧ accumulateInt (sizesPerWorker ((workers s).map List.length) reduced) >
        accumulateInt (sizesPerWorker ((workers s).map List.length) (workers s).flatten) then .fail
      else if ¬ extra = true ∧ accumulateInt (sizesPerWorker ((workers s).map List.length) reduced) <
        accumulateInt (sizesPerWorker ((workers s).map List.length) (workers s).flatten) then .fail
      else k s (.sizes reduced (intToSizeT (accumulateInt
        (sizesPerWorker ((workers s).map List.length) reduced)))), .loop [false, true],
      fun _ => [], fun _ => []⟩) :
    Inevitable (TLStep cap sz) P ⟨fun s => unifyProg sz extra (workers s) (k s), .loop [false, true],
      fun _ => [], fun _ => []⟩ := by
  unfold unifyProg
  refine tl_round hcap (fun _ => .readyToUnify) _ fun i => ?_
  simp only [processMessage, processUnifySubspaceSizes, List.length_cons, List.length_nil, ne_eq,
    Nat.reduceAdd, not_true_eq_false, if_false]
  refine tl_down_i hcap _ _ rfl ?_
  refine tl_mgr_o _ rfl ?_
  refine tl_down_o hcap _ _ rfl ?_
  simp only [reduceLocalAndRemoteSubspaceSizes, Bool.false_eq_true, if_true, if_false]
  have hlen : ∀ j : Bool, (workers j).flatten.length = (workers (!j)).flatten.length := by
    intro j; cases j
    · exact hcount
    · exact hcount.symm
  have hass : ∀ j : Bool, (List.zipWith (fun a b => decide (b = a ∨ b = 0 ∨ a = 0))
      (workers j).flatten (workers (!j)).flatten).all id = true := by
    intro j
    rw [List.all_eq_true]
    intro v hv
    obtain ⟨q, hq, hqv⟩ : ∃ q ∈ (workers j).flatten.zip (workers (!j)).flatten,
        decide (q.2 = q.1 ∨ q.2 = 0 ∨ q.1 = 0) = v := by
      rw [← List.map_uncurry_zip_eq_zipWith] at hv
      obtain ⟨q, hq, hqv⟩ := List.mem_map.mp hv
      exact ⟨q, hq, by simpa [Function.uncurry] using hqv⟩
    subst hqv
    simp only [id]
    rw [decide_eq_true_eq]
    cases j
    · have := hassert q hq
      tauto
    · have hq' : (q.2, q.1) ∈ (workers false).flatten.zip (workers true).flatten := by
        rw [← List.zip_swap]
        exact List.mem_map.mpr ⟨q, hq, rfl⟩
      have := hassert _ hq'
      simp only at this
      tauto
  have hred : ∀ j : Bool, List.zipWith (fun a b => if extra = true then min a b else max a b)
      (workers j).flatten (workers (!j)).flatten = reduced := by
    intro j
    rw [hreduced]
    cases j
    · rfl
    · rw [List.zipWith_comm]
      congr 1
      funext a b
      exact sizeOp_comm extra b a
  have hii : (!(!i)) = i := by simp
  have hass' := hass (!i)
  have hred' := hred (!i)
  rw [hii] at hass' hred'
  refine tl_sizes_io hcap _ _ (hlen i) _ _ _ rfl rfl ?_
  refine tl_sizes_oi hcap _ _ (hlen i).symm _ _ _ rfl rfl ?_
  rw [if_pos (hass i), if_pos hass', hred i, hred']
  refine tl_up_i hcap _ rfl ?_
  refine tl_up_o hcap _ rfl ?_
  convert h using 1
  unfold tlst
  congr 1 <;> funext s <;> cases s <;> cases i <;> rfl

/-- A round of `unifySubspaceSizesThirdLevel`. -/
theorem tl_unify {cap sz : ℕ} {P : TLState α R → Prop} (hcap : 0 < cap) (extra : Bool)
    (workers : Bool → List (List ℕ))
    (hcount : (workers false).flatten.length = (workers true).flatten.length)
    (hassert : ∀ p ∈ (workers false).flatten.zip (workers true).flatten,
      p.1 = p.2 ∨ p.1 = 0 ∨ p.2 = 0)
    (reduced : List ℕ) (hreduced : reduced =
      List.zipWith (sizeOp extra) (workers false).flatten (workers true).flatten)
    (hcheck : ∀ s,
      let former := accumulateInt (sizesPerWorker ((workers s).map List.length) (workers s).flatten)
      let new := accumulateInt (sizesPerWorker ((workers s).map List.length) reduced)
      ¬ (extra = true ∧ new > former) ∧ ¬ (¬ extra = true ∧ new < former))
    (k : Bool → TLResult α → SysProg α R)
    (h : Inevitable (TLStep cap sz) P ⟨fun s => k s (.sizes reduced (intToSizeT (accumulateInt
        (sizesPerWorker ((workers s).map List.length) reduced)))), .loop [false, true],
      fun _ => [], fun _ => []⟩) :
    Inevitable (TLStep cap sz) P ⟨fun s => unifyProg sz extra (workers s) (k s), .loop [false, true],
      fun _ => [], fun _ => []⟩ := by
  refine tl_unify_raw hcap extra workers hcount hassert reduced hreduced k ?_
  convert h using 1
  congr 1
  funext s
  rw [if_neg (hcheck s).1, if_neg (hcheck s).2]

/-- The second round of `monteCarloThirdLevel`. -/
theorem tl_monteCarloValues {cap sz : ℕ} {P : TLState α R → Prop} (hcap : 0 < cap) (hsz : 0 < sz)
    (add : α → α → α) (hcomm : ∀ x y, add x y = add y x) (numPoints : ℕ) (coords : List α)
    (vals : Bool → List α) (hvals : ∀ s, (vals s).length = numPoints)
    (k : Bool → TLResult α → SysProg α R)
    (h : Inevitable (TLStep cap sz) P ⟨fun s => k s (.values coords
      (List.zipWith add (vals false) (vals true))), .loop [false, true], fun _ => [], fun _ => []⟩) :
    Inevitable (TLStep cap sz) P ⟨fun s => monteCarloValues sz add numPoints coords (vals s) (k s),
      .loop [false, true], fun _ => [], fun _ => []⟩ := by
  unfold monteCarloValues
  refine tl_round hcap (fun _ => .readyToExchange) _ fun i => ?_
  simp only [processMessage, processAnyData, List.length_cons, List.length_nil, ne_eq,
    Nat.reduceAdd, not_true_eq_false, if_false]
  refine tl_down_i hcap _ _ rfl ?_
  refine tl_mgr_o _ rfl ?_
  refine tl_down_o hcap _ _ rfl ?_
  refine tl_values_io hcap hsz _ _ (hvals i) _ _ _ rfl rfl ?_
  refine tl_values_oi hcap hsz _ _ (hvals !i) _ _ _ rfl rfl ?_
  refine tl_up_i hcap _ rfl ?_
  refine tl_up_o hcap _ rfl ?_
  have hz : ∀ j : Bool, List.zipWith add (vals j) (vals !j) =
      List.zipWith add (vals false) (vals true) := by
    intro j
    cases j
    · rfl
    · exact List.zipWith_comm_of_comm hcomm
  have hz' := hz (!i)
  rw [Bool.not_not] at hz'
  rw [hz i, hz']
  convert h using 1
  unfold tlst
  congr 1 <;> funext s <;> cases s <;> cases i <;> rfl

/-- The first round of `monteCarloThirdLevel`. -/
theorem tl_monteCarlo [DecidableEq α] {cap sz : ℕ} {P : TLState α R → Prop} (hcap : 0 < cap)
    (hsz : 0 < sz) (add : α → α → α) (hcomm : ∀ x y, add x y = add y x) (numPoints : ℕ) (debug : Bool)
    (coords : Bool → List α) (interpolate : Bool → List α → List α)
    (hcoords : (coords false).length = (coords true).length)
    (hvals : ∀ s t, (interpolate s (coords t)).length = numPoints)
    (k : Bool → TLResult α → SysProg α R)
    (h : ∀ i, Inevitable (TLStep cap sz) P ⟨fun s => k s (.values (coords i)
      (List.zipWith add (interpolate false (coords i)) (interpolate true (coords i)))),
      .loop [false, true], fun _ => [], fun _ => []⟩) :
    Inevitable (TLStep cap sz) P ⟨fun s => monteCarloProg sz add numPoints (coords s) (interpolate s)
      debug (k s), .loop [false, true], fun _ => [], fun _ => []⟩ := by
  unfold monteCarloProg
  refine tl_round hcap (fun _ => .readyToExchange) _ fun i => ?_
  simp only [processMessage, processAnyData, List.length_cons, List.length_nil, ne_eq,
    Nat.reduceAdd, not_true_eq_false, if_false]
  refine tl_down_i hcap _ _ rfl ?_
  refine tl_mgr_o _ rfl ?_
  refine tl_down_o hcap _ _ rfl ?_
  have hlen : (coords i).length = (coords !i).length := by
    cases i
    · exact hcoords
    · exact hcoords.symm
  refine tl_values_io hcap hsz _ _ hlen _ _ _ rfl rfl ?_
  have hfin : Inevitable (TLStep cap sz) P (tlst i
      (monteCarloValues sz add numPoints (coords i) (interpolate i (coords i)) (k i))
      (monteCarloValues sz add numPoints (coords i) (interpolate (!i) (coords i)) (k (!i)))
      (.loop [false, true]) [] [] [] []) := by
    have := tl_monteCarloValues hcap hsz add hcomm numPoints (coords i)
      (fun s => interpolate s (coords i)) (fun s => hvals s i) k (h i)
    convert this using 1
    unfold tlst
    congr 1 <;> funext s <;> cases s <;> cases i <;> rfl
  cases debug
  · simp only [Bool.false_eq_true, if_false]
    refine tl_up_o hcap _ rfl ?_
    exact tl_up_i hcap _ rfl hfin
  · simp only [if_true]
    refine tl_values_oi hcap hsz _ _ rfl _ _ _ rfl rfl ?_
    rw [if_pos rfl]
    refine tl_up_i hcap _ rfl ?_
    exact tl_up_o hcap _ rfl hfin

/-- Both systems stop although the manager waits for more. -/
theorem tl_both_fail {cap sz : ℕ} (M : MgrProg α)
    (hM : (∃ s k, M.unfold sz = .recv s k) ∨ ∃ l, M.unfold sz = .loop l) :
    Inevitable (TLStep cap sz) (fun x : TLState α R => ∀ s, x.sys s = .fail)
      ⟨fun _ => .fail, M, fun _ => [], fun _ => []⟩ := by
  refine .here _ (fun _ => rfl) fun y hy => ?_
  cases hy with
  | sys s _ _ hs =>
    unfold sysStep at hs
    exact absurd hs (by simp)
  | mgr j _ _ hj =>
    unfold mgrStep at hj
    rcases hM with ⟨s, k, hM⟩ | ⟨l, hM⟩
    · rw [hM] at hj
      exact absurd hj (by simp)
    · rw [hM] at hj
      simp at hj

end Verif
