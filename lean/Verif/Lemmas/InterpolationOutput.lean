import Verif.Model.InterpolationOutput
import Verif.Lemmas.CombinedValues
import Verif.Props.SmallParts
import Std.Data.String.ToNat

/-!
# Helper lemmas for interpolated values for the manager and in files
-/

namespace Verif

open Interpolation

/-! ### Files -/

section files

variable {K : Type}

theorem h5Write_self (fs : H5Files K) (w : String × H5File K) : h5Write fs w w.1 = some w.2 := by
  simp [h5Write]

theorem h5Write_ne (fs : H5Files K) (w : String × H5File K) {name : String} (h : name ≠ w.1) :
    h5Write fs w name = fs name := by
  simp [h5Write, h]

theorem h5WriteAll_notMem (fs : H5Files K) (ws : List (String × H5File K)) (name : String)
    (h : name ∉ ws.map (·.1)) : h5WriteAll fs ws name = fs name := by
  induction ws generalizing fs with
  | nil => rfl
  | cons w ws ih =>
    rw [List.map_cons, List.mem_cons, not_or] at h
    change h5WriteAll (h5Write fs w) ws name = fs name
    rw [ih _ h.2, h5Write_ne fs w h.1]

/-- With different names every file is found as it was written. -/
theorem h5WriteAll_mem (fs : H5Files K) (ws : List (String × H5File K)) (h : (ws.map (·.1)).Nodup)
    {w : String × H5File K} (hw : w ∈ ws) : h5WriteAll fs ws w.1 = some w.2 := by
  induction ws generalizing fs with
  | nil => simp at hw
  | cons v ws ih =>
    rw [List.map_cons, List.nodup_cons] at h
    change h5WriteAll (h5Write fs v) ws w.1 = some w.2
    rcases List.mem_cons.1 hw with rfl | hw
    · rw [h5WriteAll_notMem _ _ _ h.1, h5Write_self]
    · exact ih _ h.2 hw

theorem h5WriteAll_some (fs : H5Files K) (ws : List (String × H5File K)) {name : String}
    (h : name ∈ ws.map (·.1)) {f : H5File K} (hf : h5WriteAll fs ws name = some f) :
    ∃ w ∈ ws, w.2 = f := by
  induction ws generalizing fs with
  | nil => simp at h
  | cons v ws ih =>
    change h5WriteAll (h5Write fs v) ws name = some f at hf
    by_cases hn : name ∈ ws.map (·.1)
    · obtain ⟨w, hw, e⟩ := ih _ hn hf
      exact ⟨w, by simp [hw], e⟩
    · have e : name = v.1 := by
        rw [List.map_cons, List.mem_cons] at h
        exact h.resolve_right hn
      rw [h5WriteAll_notMem _ _ _ hn, e, h5Write_self] at hf
      exact ⟨v, by simp, Option.some.inj hf⟩

theorem h5Read_content {fs : H5Files K} {name g d : String} {vals : List K} {time : Option K}
    (h : fs name = some (h5Content g d vals time)) : h5Read fs name = .ok vals := by
  unfold h5Read
  rw [h]
  rfl

theorem name_injective {a b : String} {i j : ℕ} (h : a ++ Nat.repr i ++ b = a ++ Nat.repr j ++ b) : i = j := by
  have h1 := congrArg String.toList h
  simp only [String.toList_append] at h1
  exact Nat.repr_injective (String.toList_inj.1 (List.append_cancel_left (List.append_cancel_right h1)))

end files

/-! ### Commands -/

section commands

variable {K : Type} [Field K] [LinearOrder K]

omit [Field K] [LinearOrder K] in
theorem serialize_eq (coords : List (List K)) (h : coords ≠ []) : serializeCoords coords = .ok coords.flatten := by
  obtain ⟨c, cs, rfl⟩ := List.exists_cons_of_ne_nil h
  have : ∀ (l : List (List K)) acc, l.foldl (fun acc c => acc ++ c) acc = acc ++ l.flatten := by
    intro l
    induction l with
    | nil => intro acc; simp
    | cons a l ih => intro acc; rw [List.foldl_cons, ih]; simp
  simp only [serializeCoords]
  rw [this]
  simp

omit [Field K] [LinearOrder K] in
theorem length_flatten_eq {dim : ℕ} {coords : List (List K)} (h : ∀ c ∈ coords, c.length = dim) :
    coords.flatten.length = coords.length * dim := by
  induction coords with
  | nil => simp
  | cons c cs ih =>
    rw [List.flatten_cons, List.length_append, h c (by simp), ih fun c' hc' => h c' (by simp [hc']),
      List.length_cons]
    ring

theorem coordsInRange_flatten {refs : List RefDim} {coords : List (List K)}
    (h : ∀ xs ∈ coords, InUnitCube refs xs) : coordsInRange coords.flatten = true := by
  unfold coordsInRange
  rw [List.all_eq_true]
  intro x hx
  obtain ⟨xs, hxs, hx⟩ := List.mem_flatten.1 hx
  obtain ⟨k, hk, rfl⟩ := List.mem_iff_getElem.1 hx
  have h1 := h xs hxs
  have := (List.forall₂_iff_get.1 h1).2 k hk (by rw [← h1.length_eq]; exact hk)
  simp only [List.get_eq_getElem] at this
  simp [this.1, this.2.1]

/-- Every group receives the coordinates. -/
theorem receiveCoords_eq {refs : List RefDim} {coords : List (List K)}
    (h : ∀ xs ∈ coords, InUnitCube refs xs) (hne : coords ≠ []) (hd : 1 ≤ refs.length)
    (hd' : refs.length ≤ 255) : receiveCoords refs.length coords.flatten = .ok coords := by
  have hlen : ∀ c ∈ coords, c.length = refs.length := fun c hc => (h c hc).length_eq
  have hpos : 0 < coords.length := List.length_pos_of_ne_nil hne
  unfold receiveCoords
  rw [if_neg]
  · have := C55_roundtrip coords refs.length hne hlen hd hd'
    rw [serialize_eq coords hne] at this
    exact this
  · rw [coordsInRange_flatten h, length_flatten_eq hlen]
    have : 0 < coords.length * refs.length := Nat.mul_pos hpos (by omega)
    simp only [Bool.true_eq_false, or_false]
    omega

theorem gather_const {β : Type} (f : ℕ → Outcome β) (b : β) (is : List ℕ) (h : ∀ i ∈ is, f i = .ok b) :
    gather f is = .ok (List.replicate is.length b) := by
  rw [gather_eq f (fun _ => b) is h, List.map_const']

theorem commandsFor_eq {serial : List K} (hs : serial.length < 2 ^ 31 - 1)
    (hr : coordsInRange serial = true) {n : ℕ} (hn : 0 < n) {numValues : ℕ} {request : Bool} {name : String}
    {last : InterpCommand K} (hl : groupCommand serial numValues request name = .ok last) :
    commandsFor n serial numValues request name =
      .ok (List.replicate (n - 1) (.values serial) ++ [last]) := by
  unfold commandsFor
  rw [if_neg (by omega), hl]
  simp only [Outcome.bind]
  rw [gather_const _ (.values serial) _ fun _ _ => ?_]
  · simp
  · unfold groupCommand
    rw [if_neg (by rw [hr]; simp; omega)]
    simp

variable [FloorRing K]

theorem interpolateReceived_const {n p : ℕ} {cart : ℕ → List ℕ} {S : ℕ → List (GroupTask K)}
    {coords : List (List K)} (hn : 0 < n) {cs : ℕ → List (List K)} (hc : ∀ g < n, cs g = coords) :
    interpolateReceived n p cart S cs = groupInterpolateValues n p cart S coords := by
  unfold interpolateReceived groupInterpolateValues interpolateValues
  simp only [hc 0 hn]
  have hany : (List.range n).any (fun g => decide ((cs g).length ≠ coords.length)) = false := by
    rw [List.any_eq_false]
    intro g hg
    rw [hc g (List.mem_range.1 hg)]
    simp
  rw [hany]
  simp only [Bool.false_eq_true, or_false]
  split
  · rfl
  · congr 1
    refine gather_congr _ fun g hg => ?_
    rw [hc g (List.mem_range.1 hg)]

theorem interpolateCommands_eq {refs : List RefDim} {n p : ℕ} {cart : ℕ → List ℕ}
    {S : ℕ → List (GroupTask K)} {coords : List (List K)} (h : ∀ xs ∈ coords, InUnitCube refs xs)
    (hne : coords ≠ []) (hd : 1 ≤ refs.length) (hd' : refs.length ≤ 255) (hn : 0 < n)
    {cmds : List (InterpCommand K)} (hlen : cmds.length = n) (hc : ∀ c ∈ cmds, c.coords = coords.flatten) :
    interpolateCommands n p cart S refs.length cmds = groupInterpolateValues n p cart S coords := by
  unfold interpolateCommands
  rw [if_neg (by simp [hlen]), gather_const _ coords _ fun g hg => ?_]
  · simp only [Outcome.bind]
    refine interpolateReceived_const hn fun g hg => ?_
    rw [List.getD_eq_getElem _ _ (by simpa using hg), List.getElem_replicate]
  · rw [List.mem_range] at hg
    rw [List.getElem?_eq_getElem (by omega)]
    simp only
    rw [hc _ (List.getElem_mem _), receiveCoords_eq h hne hd hd']

/-- What the manager needs about the coordinates. -/
structure CoordsOk (refs : List RefDim) (coords : List (List K)) : Prop where
  nonempty : coords ≠ []
  dim : 1 ≤ refs.length
  dim' : refs.length ≤ 255
  cube : ∀ xs ∈ coords, InUnitCube refs xs
  size : coords.length * refs.length < 2 ^ 31 - 1

omit [FloorRing K] in
theorem CoordsOk.serial {refs : List RefDim} {coords : List (List K)} (h : CoordsOk refs coords) :
    coords.flatten.length < 2 ^ 31 - 1 := by
  rw [length_flatten_eq fun c hc => (h.cube c hc).length_eq]
  exact h.size

omit [FloorRing K] in
theorem CoordsOk.length_lt {refs : List RefDim} {coords : List (List K)} (h : CoordsOk refs coords) :
    coords.length < 2 ^ 31 := by
  have := h.size
  have : coords.length * 1 ≤ coords.length * refs.length := Nat.mul_le_mul_left _ h.dim
  omega

/-- The manager gets what `interpolateValues` yields on the groups. -/
theorem manager_eq {refs : List RefDim} {coords : List (List K)} (h : CoordsOk refs coords) (nan : K)
    {n p : ℕ} (hn : 0 < n) (cart : ℕ → List ℕ) (S : ℕ → List (GroupTask K)) {vals : List K}
    (hv : groupInterpolateValues n p cart S coords = .ok vals) (hl : vals.length = coords.length) :
    managerInterpolateValues nan n p cart S refs.length coords = .ok vals := by
  have hpos : coords.length ≠ 0 := by
    have := h.nonempty
    simp [this]
  have hg : groupCommand coords.flatten coords.length true "" = .ok (.sendBack coords.flatten) := by
    unfold groupCommand
    have := h.serial
    rw [if_neg (by rw [coordsInRange_flatten h.cube, not_or]; exact ⟨by omega, by simp⟩)]
    simp [hpos]
  unfold managerInterpolateValues
  rw [serialize_eq coords h.nonempty]
  simp only [Outcome.bind]
  rw [commandsFor_eq h.serial (coordsInRange_flatten h.cube) hn hg]
  simp only
  rw [interpolateCommands_eq h.cube h.nonempty h.dim h.dim' hn (by simp; omega), hv]
  · have : (List.replicate (n - 1) (InterpCommand.values coords.flatten) ++
        [InterpCommand.sendBack coords.flatten])[n - 1]? = some (.sendBack coords.flatten) := by
      rw [List.getElem?_append_right (by simp)]
      simp
    simp [hl]
  · intro c hc
    rcases List.mem_append.1 hc with hc | hc
    · rw [(List.mem_replicate.1 hc).2]; rfl
    · rw [List.mem_singleton.1 hc]; rfl

end commands

/-! ### Writes of all processes -/

section writes

variable {β : Type}

theorem gatherAll_eq {n p : ℕ} {f : ℕ → ℕ → Outcome (List β)} (F : ℕ → ℕ → List β)
    (h : ∀ g < n, ∀ r < p, f g r = .ok (F g r)) :
    gatherAll n p f = .ok ((List.range n).flatMap fun g => (List.range p).flatMap fun r => F g r) := by
  unfold gatherAll
  rw [gather_eq _ (fun g => ((List.range p).map fun r => F g r).flatten) _ fun g hg => ?_]
  · simp only [Outcome.bind]
    rw [List.flatMap_def]
    simp_rw [List.flatMap_def]
  · rw [gather_eq _ (F g) _ fun r hr => h g (List.mem_range.1 hg) r (List.mem_range.1 hr)]
    rfl

theorem flatMap_range_single {n k : ℕ} (hk : k < n) {F : ℕ → List β} (h : ∀ g < n, g ≠ k → F g = []) :
    (List.range n).flatMap F = F k := by
  induction n with
  | zero => omega
  | succ n ih =>
    rw [List.range_succ, List.flatMap_append, List.flatMap_singleton]
    by_cases hkn : k = n
    · subst hkn
      have : (List.range k).flatMap F = [] := by
        rw [List.flatMap_eq_nil_iff]
        intro g hg
        have := List.mem_range.1 hg
        exact h g (by omega) (by omega)
      rw [this, List.nil_append]
    · rw [ih (by omega) fun g hg hgk => h g (by omega) hgk, h n (by omega) (by omega), List.append_nil]

/-- Only one process has a result. -/
theorem gatherAll_single {n p : ℕ} (hn : 0 < n) (hp : 0 < p) {f : ℕ → ℕ → Outcome (List β)} {w : List β}
    (h1 : f (n - 1) 0 = .ok w) (h2 : ∀ g < n, ∀ r < p, ¬(g = n - 1 ∧ r = 0) → f g r = .ok []) :
    gatherAll n p f = .ok w := by
  rw [gatherAll_eq (fun g r => if g = n - 1 ∧ r = 0 then w else []) fun g hg r hr => ?_]
  · rw [flatMap_range_single (k := n - 1) (by omega) fun g hg hne => ?_,
      flatMap_range_single (k := 0) hp fun r hr hne => ?_]
    · simp
    · rw [if_neg (by omega)]
    · rw [List.flatMap_eq_nil_iff]
      intro r hr
      rw [if_neg (by omega)]
  · split
    · next hc => rw [hc.1, hc.2, h1]
    · next hc => exact h2 g hg r hr hc

theorem gather_stuck {f : ℕ → Outcome β} {is : List ℕ} {k : ℕ} (hk : k ∈ is) (h1 : f k = .stuck)
    (h2 : ∀ i ∈ is, i ≠ k → ∃ b, f i = .ok b) : gather f is = .stuck := by
  induction is with
  | nil => simp at hk
  | cons i is ih =>
    by_cases hik : i = k
    · subst hik
      rw [gather, h1]
      rfl
    · obtain ⟨b, hb⟩ := h2 i (by simp) hik
      rw [gather, hb, Outcome.bind, ih ((List.mem_cons.1 hk).resolve_left (Ne.symm hik))
        fun j hj hjk => h2 j (by simp [hj]) hjk]
      rfl

/-- One process comes to undefined behaviour. -/
theorem gatherAll_stuck {n p : ℕ} (hn : 0 < n) (hp : 0 < p) {f : ℕ → ℕ → Outcome (List β)}
    (h1 : f (n - 1) 0 = .stuck) (h2 : ∀ g < n, ∀ r < p, ¬(g = n - 1 ∧ r = 0) → ∃ w, f g r = .ok w) :
    gatherAll n p f = .stuck := by
  unfold gatherAll
  rw [gather_stuck (k := n - 1) (List.mem_range.2 (by omega))]
  · rfl
  · rw [gather_stuck (k := 0) (List.mem_range.2 hp) h1 fun r hr hr0 =>
      h2 _ (by omega) r (List.mem_range.1 hr) (by omega)]
    rfl
  · intro g hg hne
    have : ∃ F : ℕ → List β, ∀ r < p, f g r = .ok (F r) := by
      have := fun r hr => h2 g (List.mem_range.1 hg) r hr (by omega)
      choose F hF using this
      exact ⟨fun r => if hr : r < p then F r hr else [], fun r hr => by beta_reduce; rw [hF r hr, dif_pos hr]⟩
    obtain ⟨F, hF⟩ := this
    rw [gather_eq _ F _ fun r hr => hF r (List.mem_range.1 hr)]
    exact ⟨_, rfl⟩

theorem gather_ok {f : ℕ → Outcome β} {is : List ℕ} {l : List β} (h : gather f is = .ok l) :
    ∀ b ∈ l, ∃ i ∈ is, f i = .ok b := by
  induction is generalizing l with
  | nil =>
    cases h
    simp
  | cons i is ih =>
    rw [gather] at h
    cases hi : f i with
    | ok a =>
      rw [hi] at h
      cases hr : gather f is with
      | ok r =>
        rw [hr] at h
        cases h
        intro b hb
        rcases List.mem_cons.1 hb with rfl | hb
        · exact ⟨i, by simp, hi⟩
        · obtain ⟨j, hj, hjb⟩ := ih hr b hb
          exact ⟨j, by simp [hj], hjb⟩
      | error => rw [hr] at h; cases h
      | stuck => rw [hr] at h; cases h
    | error => rw [hi] at h; cases h
    | stuck => rw [hi] at h; cases h

theorem gatherAll_ok {n p : ℕ} {f : ℕ → ℕ → Outcome (List β)} {l : List β} (h : gatherAll n p f = .ok l) :
    ∀ b ∈ l, ∃ g < n, ∃ r < p, ∃ w, f g r = .ok w ∧ b ∈ w := by
  unfold gatherAll at h
  cases h1 : gather (fun g => (gather (f g) (List.range p)).bind fun l => .ok l.flatten) (List.range n) with
  | ok ls =>
    rw [h1] at h
    cases h
    intro b hb
    obtain ⟨l1, hl1, hb⟩ := List.mem_flatten.1 hb
    obtain ⟨g, hg, hgl⟩ := gather_ok h1 l1 hl1
    cases h2 : gather (f g) (List.range p) with
    | ok ws =>
      rw [h2] at hgl
      cases hgl
      obtain ⟨w, hw, hb⟩ := List.mem_flatten.1 hb
      obtain ⟨r, hr, hrw⟩ := gather_ok h2 w hw
      exact ⟨g, List.mem_range.1 hg, r, List.mem_range.1 hr, w, hrw, hb⟩
    | error => rw [h2] at hgl; cases hgl
    | stuck => rw [h2] at hgl; cases hgl
  | error => rw [h1] at h; cases h
  | stuck => rw [h1] at h; cases h

end writes

/-! ### Values of one task -/

section perGrid

variable {K : Type} [Field K] [LinearOrder K] [FloorRing K] [IsStrictOrderedRing K]

/-- The interpolant of a component grid. -/
def componentAt (refs : List RefDim) (t : K × List ℕ × (ℕ → K)) (xs : List K) : K :=
  interp (Interpolation.axesAt (gridAxes refs t.2.1) xs)
    fun is => t.2.2 (sequentialIndex (wholeSizes refs t.2.1) is)

/-- Every process of the group gets the values of the interpolant. -/
theorem taskValues_eq {refs : List RefDim} (hr : ∀ r ∈ refs, ValidRef r) {t : K × List ℕ × (ℕ → K)}
    {gt : GroupTask K} (hL : ValidComponent refs t.2.1) (h : HoldsParts refs t gt)
    (hne : ∀ c, InGroup refs c → ∀ d ∈ List.zipWith localOf (atProcess refs c) t.2.1, 0 < d.size)
    {p : ℕ} {cart : ℕ → List ℕ} (hg : ProcGrid p cart (refs.map fun r => r.dec.length))
    {coords : List (List K)} (hlen : coords.length < 2 ^ 31) (hx : ∀ xs ∈ coords, InUnitCube refs xs) :
    taskValues p cart gt coords = .ok (coords.map (componentAt refs t)) := by
  have hok := combiOf_ok hL h hg
  have hev := fun xs hxs => grid_eval hg hok (combiOf_coordOk (gt := gt) hr hL hne cart (hx xs hxs))
  unfold taskValues
  rw [if_neg (by omega), gather_eq _ (fun r => coords.map fun xs =>
    evalVal ((combiOf refs cart t gt).on (cart r) r) xs) _ fun r hrp => ?_]
  · simp only [Outcome.bind]
    rw [allreduce_eq]
    congr 1
    refine List.map_congr_left fun xs hxs => ?_
    exact (hev xs hxs).2
  · rw [gather_eq _ (fun i => evalVal ((combiOf refs cart t gt).on (cart r) r) (coords.getD i [])) _
      fun i hi => ?_]
    · congr 1
      apply List.ext_getElem
      · simp
      · intro i h1 h2
        simp only [List.length_map] at h2
        simp only [List.getElem_map, List.getElem_range]
        rw [List.getD_eq_getElem _ _ h2]
    · rw [List.mem_range] at hi
      rw [List.getElem?_eq_getElem hi, List.getD_eq_getElem _ _ hi]
      simp only
      rw [evalOn_combiOf h]
      exact (hev _ (List.getElem_mem hi)).1 r (List.mem_range.1 hrp)

/-- The file of a task. -/
def taskFile (filenamePrefix : String) (step : ℕ) (V : OutputTask K → List K) (t : OutputTask K) :
    String × H5File K :=
  (filenamePrefix ++ "_task_" ++ Nat.repr t.id ++ ".h5",
    h5Content "run_" ("interpolated_" ++ Nat.repr step) (V t) t.time)

omit [IsStrictOrderedRing K] in
/-- What a process writes: every task whose number has the remainder `r`. -/
theorem perGridLoop_eq {p r : ℕ} {cart : ℕ → List ℕ} {coords : List (List K)} {name : String} {step : ℕ}
    {V : OutputTask K → List K} (ts : List (OutputTask K))
    (h : ∀ t ∈ ts, taskValues p cart t.task coords = .ok (V t)) (i : ℕ) :
    perGridLoop p r cart coords name step i ts =
      .ok (((ts.zipIdx i).filter fun a => a.2 % p = r).map fun a => taskFile name step V a.1) := by
  induction ts generalizing i with
  | nil => rfl
  | cons t ts ih =>
    rw [perGridLoop, h t (by simp)]
    simp only [Outcome.bind]
    rw [ih (fun t ht => h t (by simp [ht])), List.zipIdx_cons, List.filter_cons]
    simp only [decide_eq_true_eq]
    split <;> rfl

theorem perm_flatMap_insert {β : Type} {p k : ℕ} (hk : k < p) (w : β) (ws : ℕ → List β) :
    ((List.range p).flatMap fun r => if k = r then w :: ws r else ws r).Perm
      (w :: (List.range p).flatMap ws) := by
  induction p with
  | zero => omega
  | succ p ih =>
    rw [List.range_succ, List.flatMap_append, List.flatMap_append, List.flatMap_singleton,
      List.flatMap_singleton]
    by_cases hkp : k = p
    · subst hkp
      rw [if_pos rfl]
      have : ((List.range k).flatMap fun r => if k = r then w :: ws r else ws r) = (List.range k).flatMap ws := by
        rw [List.flatMap_def, List.flatMap_def]
        congr 1
        refine List.map_congr_left fun r hr => ?_
        rw [List.mem_range] at hr
        rw [if_neg (by omega)]
      rw [this]
      exact List.perm_middle
    · rw [if_neg hkp]
      exact (ih (by omega)).append_right _

/-- All processes of a group together write every task once. -/
theorem perm_ranks {β γ : Type} {p : ℕ} (hp : 0 < p) (W : β → γ) (ts : List β) (i : ℕ) :
    ((List.range p).flatMap fun r => ((ts.zipIdx i).filter fun a => a.2 % p = r).map fun a => W a.1).Perm
      (ts.map W) := by
  induction ts generalizing i with
  | nil => simp
  | cons t ts ih =>
    have e : ∀ r, (((t :: ts).zipIdx i).filter fun a => a.2 % p = r).map (fun a => W a.1) =
        if i % p = r then W t :: ((ts.zipIdx (i + 1)).filter fun a => a.2 % p = r).map (fun a => W a.1)
        else ((ts.zipIdx (i + 1)).filter fun a => a.2 % p = r).map (fun a => W a.1) := by
      intro r
      rw [List.zipIdx_cons, List.filter_cons]
      simp only [decide_eq_true_eq]
      split <;> rfl
    simp_rw [e]
    rw [List.map_cons]
    exact (perm_flatMap_insert (Nat.mod_lt _ hp) _ _).trans ((ih (i + 1)).cons _)

omit [IsStrictOrderedRing K] in
theorem perGridLoop_content {p r : ℕ} {cart : ℕ → List ℕ} {coords : List (List K)} {name : String} {step : ℕ}
    (ts : List (OutputTask K)) (i : ℕ) {ws : List (String × H5File K)}
    (h : perGridLoop p r cart coords name step i ts = .ok ws) {w : String × H5File K} (hw : w ∈ ws) :
    ∃ vals time, w.2 = h5Content "run_" ("interpolated_" ++ Nat.repr step) vals time := by
  induction ts generalizing i ws with
  | nil =>
    cases h
    simp at hw
  | cons t ts ih =>
    rw [perGridLoop] at h
    cases h1 : taskValues p cart t.task coords with
    | ok vals =>
      cases h2 : perGridLoop p r cart coords name step (i + 1) ts with
      | ok rest =>
        rw [h1, Outcome.bind, h2, Outcome.bind] at h
        injection h with h
        subst h
        split at hw
        · rcases List.mem_cons.1 hw with rfl | hw
          · exact ⟨_, _, rfl⟩
          · exact ih _ h2 hw
        · exact ih _ h2 hw
      | error => rw [h1, Outcome.bind, h2] at h; cases h
      | stuck => rw [h1, Outcome.bind, h2] at h; cases h
    | error => rw [h1] at h; cases h
    | stuck => rw [h1] at h; cases h

omit [IsStrictOrderedRing K] in
theorem managerWritePerGrid_content {n p : ℕ} {cart : ℕ → List ℕ} {O : ℕ → List (OutputTask K)} {dim : ℕ}
    {coords : List (List K)} {name : String} {step : ℕ} {ws : List (String × H5File K)}
    (h : managerWritePerGrid n p cart O dim coords name step = .ok ws) {w : String × H5File K}
    (hw : w ∈ ws) :
    ∃ vals time, w.2 = h5Content "run_" ("interpolated_" ++ Nat.repr step) vals time := by
  unfold managerWritePerGrid at h
  cases h1 : serializeCoords coords with
  | ok serial =>
    rw [h1, Outcome.bind] at h
    split at h
    · cases h
    · obtain ⟨g, -, r, -, ws1, h2, hw1⟩ := gatherAll_ok h w hw
      cases h3 : receiveCoords dim serial with
      | ok cs =>
        rw [h3] at h2
        exact perGridLoop_content (O g) 0 h2 hw1
      | error => rw [h3] at h2; cases h2
      | stuck => rw [h3] at h2; cases h2
  | error => rw [h1] at h; cases h
  | stuck => rw [h1] at h; cases h

end perGrid

end Verif
