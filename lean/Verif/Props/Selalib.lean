import Verif.Lemmas.SelalibGroups
import Verif.Props.Classical

/-!
# C116: the Selalib example

The parameter files of the tasks, the restart, and the combined diagnostics.
-/

namespace Verif.Selalib

/-! ### Parameter files -/

/-- A template in which every placeholder occurs once and none begins with the name of another one: the file of a
task is the template with the values of the settings. -/
theorem C116_parameters {S : Settings} (hname : '$' ∉ S.nameDiagnostics) {tp : List Piece}
    (ht : GoodTemplate S.p.length tp) {resolution : List ℕ} (hlen : resolution.length = S.p.length)
    {value : List Char → Option (List Char)} (hv : Values S resolution value) :
    adaptParameterFile S (render tp) resolution = .ok (fill value tp) :=
  adapt_value hname ht hlen hv

/-- Settings for two dimensions. -/
def settings2 : Settings := ⟨[2, 3], 7, 1 / 100, 1, "name".toList⟩

/-- A short template. -/
def pieces2 : List Piece := [.text "n = ".toList, .hole "nx2".toList, .text " ".toList, .hole "nx1".toList,
  .text ", p = ".toList, .hole "p1".toList, .text ", dt = ".toList, .hole "dt".toList]

theorem values_settings2 (a b : ℕ) : Values settings2 [a, b] fun k => (subsOf settings2 [a, b]).lookup k where
  nsteps := rfl
  dt := rfl
  nDiagnostics := rfl
  nameDiagnostics := rfl
  nx := by
    intro d r h
    match d, h with
    | 0, h => cases h; rfl
    | 1, h => cases h; rfl
  p := by
    intro d r h
    match d, h with
    | 0, h => cases h; rfl
    | 1, h => cases h; rfl
  other := by
    intro k hk
    have h : k ∉ (subsOf settings2 [a, b]).map Prod.fst := by
      intro h
      obtain ⟨kv, h1, rfl⟩ := List.mem_map.1 h
      exact hk (mem_names h1)
    cases hl : (subsOf settings2 [a, b]).lookup k with
    | none => rfl
    | some v =>
      refine absurd ?_ h
      rw [List.lookup_eq_some_iff] at hl
      obtain ⟨l1, l2, h2, -⟩ := hl
      rw [h2]
      simp

theorem pieces2_good : GoodTemplate settings2.p.length pieces2 :=
  ⟨by decide +kernel, by decide +kernel, by decide +kernel⟩

example : adaptParameterFile settings2 "n = $nx2 $nx1, p = $p1, dt = $dt".toList [8, 16] =
    .ok "n = 16 8, p = 2, dt = 0.010000".toList := by
  have := C116_parameters (S := settings2) (by decide +kernel) pieces2_good (resolution := [8, 16]) rfl
    (values_settings2 8 16)
  rw [show "n = $nx2 $nx1, p = $p1, dt = $dt".toList = render pieces2 from by decide +kernel, this]
  decide +kernel

/-- A text line by line. -/
def lines (l : List String) : List Char := l.flatMap String.toList

/-- Text of the file without placeholders. -/
def paramText1 : List Char :=
  lines ["\n", "        test_case = \"twogaussian_sum\"\n", "        ctest = .false.\n", "/\n", "\n",
      "&restart_params\n", "        restart = .false.\n", "        n_diagnostics = "]

/-- Text of the file without placeholders. -/
def paramText2 : List Char := lines ["\n", "/\n", "\n", "&grid_dims\n", "        num_cells_x1 = "]

/-- Text of the file without placeholders. -/
def paramText3 : List Char := lines ["\n", "/\n", "\n", "&domain_dims\n", "        v_max = 9.0\n",
      "        x1_max = 31.415926535897931\n", "        x2_max = 31.415926535897931\n",
      "        x3_max = 31.415926535897931\n", "/\n", "\n", "&pslab_params\n", "        B0 = 0.0\n",
      "/\n", "\n", "&advect_params\n", "        bc_type = \"sll_p_periodic\"\n",
      "        stencil = 7\n", "        interpolator_type = \"fixed\"\n", "        stencil_x = 7\n",
      "/\n", "\n", "&propagator\n", "        propagator_type = \"boris\"\n", "/\n", "\n",
      "&output\n", "       file_prefix = \""]

/-- Text of the file without placeholders. -/
def paramText4 : List Char := lines ["\"\n",
      "       time_in_phase = .true. ! get solution at final time exactly (perform half advection step)\n",
      "/\n", "\n", "&parallel_params\n", "       n_blocks = 4 4 4 4 4 4 ! TODO parameterize\n",
      "       process_grid = "]

/-- Text of the file without placeholders. -/
def paramText5 : List Char :=
  lines ["  ! default: determine values automatically\n", "/\n", "\n", "&twogaussian_params\n",
      "       alpha = 0.001\n", "       portion = 0.5\n", "       v_thermal1 = 1.0 1.0 1.0\n",
      "       v_thermal2 = 1.0 1.0 1.0\n", "       v_mean1 = -2.4 0.0 0.0\n",
      "       v_mean2 =  2.4 0.0 0.0\n", "       kx = 0.2 0.2 0.2\n", "/ \n", "\n"]

/-- `/repo/examples/selalib_distributed/template/param.nml`, cut at the placeholders. -/
def paramPieces : List Piece := [
  .text (lines ["&sim_params\n", "        ! final_time = "]), .hole "simtime".toList,
  .text (lines ["\n", "        n_iterations = "]), .hole "nsteps".toList,
  .text (lines ["\n", "        delta_t = "]), .hole "dt".toList, .text paramText1,
  .hole "n_diagnostics".toList, .text paramText2, .hole "nx1".toList,
  .text (lines ["\n", "        num_cells_x2 = "]), .hole "nx2".toList,
  .text (lines ["\n", "        num_cells_x3 = "]), .hole "nx3".toList,
  .text (lines ["\n", "        num_cells_x4 = "]), .hole "nx4".toList,
  .text (lines ["\n", "        num_cells_x5 = "]), .hole "nx5".toList,
  .text (lines ["\n", "        num_cells_x6 = "]), .hole "nx6".toList, .text paramText3,
  .hole "name_diagnostics".toList, .text paramText4, .hole "p1".toList, .text " ".toList, .hole "p2".toList,
  .text " ".toList, .hole "p3".toList, .text " ".toList, .hole "p4".toList, .text " ".toList,
  .hole "p5".toList, .text " ".toList, .hole "p6".toList, .text paramText5]

theorem paramPieces_good : GoodTemplate 6 paramPieces :=
  ⟨by decide +kernel, by decide +kernel, by decide +kernel⟩

/-- The parameter file that comes with the example, for six dimensions: every placeholder except the commented
`$simtime` gets its value, and the rest of the text stays. -/
theorem C116_template (nsteps nDiag r1 r2 r3 r4 r5 r6 p1 p2 p3 p4 p5 p6 : ℕ) (dt : ℚ) (name : List Char)
    (hname : '$' ∉ name) :
    adaptParameterFile ⟨[p1, p2, p3, p4, p5, p6], nsteps, dt, nDiag, name⟩ (render paramPieces)
      [r1, r2, r3, r4, r5, r6] = .ok (
        (lines ["&sim_params\n", "        ! final_time = "]) ++ "$simtime".toList ++
        (lines ["\n", "        n_iterations = "]) ++ decimal nsteps ++ (lines ["\n", "        delta_t = "]) ++
        fixedText dt ++ paramText1 ++ decimal nDiag ++ paramText2 ++ decimal r1 ++
        (lines ["\n", "        num_cells_x2 = "]) ++ decimal r2 ++ (lines ["\n", "        num_cells_x3 = "]) ++
        decimal r3 ++ (lines ["\n", "        num_cells_x4 = "]) ++ decimal r4 ++
        (lines ["\n", "        num_cells_x5 = "]) ++ decimal r5 ++ (lines ["\n", "        num_cells_x6 = "]) ++
        decimal r6 ++ paramText3 ++ name ++ paramText4 ++ decimal p1 ++ " ".toList ++ decimal p2 ++
        " ".toList ++ decimal p3 ++ " ".toList ++ decimal p4 ++ " ".toList ++ decimal p5 ++ " ".toList ++
        decimal p6 ++ paramText5) := by
  have h := adapt_fill ⟨[p1, p2, p3, p4, p5, p6], nsteps, dt, nDiag, name⟩ hname paramPieces paramPieces_good.ok
    paramPieces_good.once [r1, r2, r3, r4, r5, r6] rfl paramPieces_good.noPrefix
  rw [h]
  set subs := subsOf ⟨[p1, p2, p3, p4, p5, p6], nsteps, dt, nDiag, name⟩ [r1, r2, r3, r4, r5, r6] with hs
  have h_simtime : subs.lookup "simtime".toList = none := rfl
  have h_nsteps : subs.lookup "nsteps".toList = some (decimal nsteps) := rfl
  have h_dt : subs.lookup "dt".toList = some (fixedText dt) := rfl
  have h_n_diagnostics : subs.lookup "n_diagnostics".toList = some (decimal nDiag) := rfl
  have h_nx1 : subs.lookup "nx1".toList = some (decimal r1) := rfl
  have h_nx2 : subs.lookup "nx2".toList = some (decimal r2) := rfl
  have h_nx3 : subs.lookup "nx3".toList = some (decimal r3) := rfl
  have h_nx4 : subs.lookup "nx4".toList = some (decimal r4) := rfl
  have h_nx5 : subs.lookup "nx5".toList = some (decimal r5) := rfl
  have h_nx6 : subs.lookup "nx6".toList = some (decimal r6) := rfl
  have h_name_diagnostics : subs.lookup "name_diagnostics".toList = some name := rfl
  have h_p1 : subs.lookup "p1".toList = some (decimal p1) := rfl
  have h_p2 : subs.lookup "p2".toList = some (decimal p2) := rfl
  have h_p3 : subs.lookup "p3".toList = some (decimal p3) := rfl
  have h_p4 : subs.lookup "p4".toList = some (decimal p4) := rfl
  have h_p5 : subs.lookup "p5".toList = some (decimal p5) := rfl
  have h_p6 : subs.lookup "p6".toList = some (decimal p6) := rfl
  unfold paramPieces
  simp only [fill, h_simtime, h_nsteps, h_dt, h_n_diagnostics, h_nx1, h_nx2, h_nx3, h_nx4, h_nx5, h_nx6,
    h_name_diagnostics, h_p1, h_p2, h_p3, h_p4, h_p5, h_p6, Option.getD_some,
    Option.getD_none, List.append_assoc, List.append_nil]
  rfl

example : '$' ∉ "vp_B2_3d3v".toList := by decide +kernel

/-- A placeholder that begins with the name of another one: the file with ten dimensions in which `$nx10` stands
before `$nx1` gets the resolution of the first dimension and a zero in its place, and `$nx1` stays. -/
theorem C116_prefix_violated : ∃ S : Settings, S.p.length = 10 ∧
    adaptParameterFile S "$nx10 $nx1".toList (List.replicate 9 4 ++ [8]) = .ok "40 $nx1".toList :=
  ⟨⟨List.replicate 10 1, 1, 1, 1, []⟩, rfl, by decide +kernel⟩

/-! ### The step size in the file -/

/-- The number that a text with a point denotes. -/
def textValue (t : List Char) : ℚ :=
  let digits := t.filter fun c => c != '-'
  (if t.head? = some '-' then -1 else 1) *
    ((Nat.ofDigitChars 10 (digits.takeWhile (· != '.')) 0 : ℕ) +
      (Nat.ofDigitChars 10 (digits.dropWhile (· != '.')).tail 0 : ℕ) /
        10 ^ (digits.dropWhile (· != '.')).tail.length)

theorem textValue_eq (neg : Bool) {a b : List Char} (ha : ∀ c ∈ a, c.isDigit = true) (hne : a ≠ [])
    (hb : ∀ c ∈ b, c.isDigit = true) :
    textValue ((if neg then ['-'] else []) ++ a ++ '.' :: b) =
      (if neg then -1 else 1) * ((Nat.ofDigitChars 10 a 0 : ℕ) + (Nat.ofDigitChars 10 b 0 : ℕ) / 10 ^ b.length) := by
  have hd : ∀ l : List Char, (∀ c ∈ l, c.isDigit = true) → l.filter (fun c => c != '-') = l := by
    intro l hl
    rw [List.filter_eq_self]
    intro c hc
    have := hl c hc
    rw [bne_iff_ne]
    rintro rfl
    revert this
    decide
  have hf : ((if neg then ['-'] else []) ++ a ++ '.' :: b).filter (fun c => c != '-') = a ++ '.' :: b := by
    rw [List.filter_append, List.filter_append, hd a ha, List.filter_cons_of_pos (by decide), hd b hb]
    cases neg <;> rfl
  have hp : ∀ c ∈ a, (c != '.') = true := by
    intro c hc
    have := ha c hc
    rw [bne_iff_ne]
    rintro rfl
    revert this
    decide
  have ht : (a ++ '.' :: b).takeWhile (· != '.') = a := by
    rw [List.takeWhile_append_of_pos hp, List.takeWhile_cons_of_neg (by decide), List.append_nil]
  have hw : (a ++ '.' :: b).dropWhile (· != '.') = '.' :: b := by
    rw [List.dropWhile_append_of_pos hp, List.dropWhile_cons_of_neg (by decide)]
  have hh : (((if neg then ['-'] else []) ++ a ++ '.' :: b).head? = some '-') ↔ neg = true := by
    cases neg with
    | true => simp
    | false =>
      cases a with
      | nil => simp at hne
      | cons c a =>
        simp only [Bool.false_eq_true, if_false, List.nil_append, List.cons_append, List.head?_cons,
          Option.some.injEq, iff_false]
        rintro rfl
        have := ha '-' (by simp)
        revert this
        decide
  unfold textValue
  simp only [hf, ht, hw, List.tail_cons]
  congr 1
  by_cases h : neg = true
  · rw [if_pos (hh.2 h), if_pos h]
  · rw [if_neg fun h' => h (hh.1 h'), if_neg h]

theorem decimal_ne_nil (n : ℕ) : decimal n ≠ [] := by
  intro h
  have := ofDigits_decimal n
  rw [h, Nat.ofDigitChars_nil] at this
  subst this
  revert h
  decide

/-- The step size in the file differs from the one in the settings by at most half of the last of six decimals.
Missing: that the step size is the one of the settings (`C116_dt_violated`). -/
theorem C116_dt_partial (x : ℚ) : |textValue (fixedText x) - x| ≤ 1 / 2000000 := by
  set n := ⌊|x| * 1000000 + 1 / 2⌋.toNat with hn
  have h0 : (0 : ℤ) ≤ ⌊|x| * 1000000 + 1 / 2⌋ := Int.floor_nonneg.2 (by positivity)
  have hcast : ((n : ℕ) : ℚ) = (⌊|x| * 1000000 + 1 / 2⌋ : ℤ) := by
    rw [hn]
    exact_mod_cast Int.toNat_of_nonneg h0
  have h1 : (n : ℚ) ≤ |x| * 1000000 + 1 / 2 := by
    rw [hcast]
    exact Int.floor_le _
  have h2 : |x| * 1000000 + 1 / 2 < n + 1 := by
    rw [hcast]
    exact Int.lt_floor_add_one _
  have hsix : (sixDigits (n % 1000000)).length = 6 := rfl
  have hv := textValue_eq (decide (x < 0)) (fun c hc => decimal_digit (n := n / 1000000) hc)
    (decimal_ne_nil _) (fun c hc => sixDigits_digit (n := n % 1000000) hc)
  rw [ofDigits_decimal, ofDigits_six (Nat.mod_lt _ (by omega)), hsix] at hv
  have hf : fixedText x = (if decide (x < 0) then ['-'] else []) ++ decimal (n / 1000000) ++
      '.' :: sixDigits (n % 1000000) := by
    unfold fixedText
    simp only [decide_eq_true_eq, ← hn]
  have hdiv : ((n / 1000000 : ℕ) : ℚ) + ((n % 1000000 : ℕ) : ℚ) / 10 ^ 6 = n / 1000000 := by
    have := Nat.div_add_mod n 1000000
    have h3 : ((1000000 * (n / 1000000) + n % 1000000 : ℕ) : ℚ) = n := by rw [this]
    push_cast at h3
    rw [← h3]
    ring
  rw [hf, hv, hdiv]
  by_cases hx : x < 0
  · rw [abs_of_neg hx] at h1 h2
    simp only [hx, decide_true, if_true]
    rw [abs_le]
    constructor <;> linarith
  · rw [abs_of_nonneg (not_lt.1 hx)] at h1 h2
    simp only [hx, decide_false, Bool.false_eq_true, if_false]
    rw [abs_le]
    constructor <;> linarith

example : textValue (fixedText (-1 / 3)) = -333333 / 1000000 := by decide +kernel

/-- Step sizes below half of the last decimal become zero: Selalib does not advance. -/
theorem C116_dt_violated (x : ℚ) (h0 : 0 ≤ x) (h1 : x < 1 / 2000000) : fixedText x = "0.000000".toList := by
  have hn : ⌊|x| * 1000000 + 1 / 2⌋ = 0 := by
    rw [Int.floor_eq_zero_iff, abs_of_nonneg h0]
    constructor <;> linarith
  unfold fixedText
  rw [hn]
  simp only
  rw [if_neg (not_lt.2 h0)]
  decide +kernel

example : (0 : ℚ) < 1 / 10000000 ∧ (1 / 10000000 : ℚ) < 1 / 2000000 := by norm_num

/-! ### Folders and tasks -/

/-- With a manager: folder `i` gets the file for grid `i`, whose resolution is a power of two in each dimension,
other folders stay, and task `i` has grid `i` with its coefficient and runs in folder `i`. -/
theorem C116_manager {S : Settings} (hname : '$' ∉ S.nameDiagnostics) {tp : List Piece}
    (ht : GoodTemplate S.p.length tp) (s : Scheme) (hlen : s.combiSpaces.length = s.coefficients.length)
    (hl : ∀ l ∈ s.combiSpaces, l.length = S.p.length) (value : List ℕ → List Char → Option (List Char))
    (hv : ∀ l ∈ s.combiSpaces, Values S (l.map fun x => 2 ^ x) (value l)) (hc : ℕ → Bool) (F : Folders) :
    ∃ F' tasks, managerStart S (render tp) s false hc none F = .ok (F', tasks) ∧
      tasks.length = s.combiSpaces.length ∧
      (∀ i l c, s.combiSpaces[i]? = some l → s.coefficients[i]? = some c →
        tasks[i]? = some ⟨l, c, i⟩ ∧ F' i = some (fill (value l) tp)) ∧
      ∀ i, s.combiSpaces.length ≤ i → F' i = F i := by
  obtain ⟨F', e, a1, a2⟩ := create_ok S (render tp) (fun l => fill (value l) tp) s.combiSpaces
    (fun l h => ⟨hl l h, adapt_value hname ht (by rw [List.length_map]; exact hl l h) (hv l h)⟩)
    (List.range s.combiSpaces.length) (fun i hi => List.mem_range.1 hi) List.nodup_range F
  have hsp : (List.range s.combiSpaces.length).map (fun i => s.combiSpaces.getD i []) = s.combiSpaces := by
    refine List.ext_getElem (by simp) fun i h1 h2 => ?_
    rw [List.getElem_map, List.getElem_range, List.getD_eq_getElem _ _ h2]
  rw [hsp] at e
  have htasks := groupGrids_eq s hlen (List.range s.combiSpaces.length) fun i hi => List.mem_range.1 hi
  refine ⟨F', groupGrids s (List.range s.combiSpaces.length), ?_, ?_, ?_, ?_⟩
  · unfold managerStart
    simp only [Bool.false_eq_true, if_false, e, Outcome.bind, fullGridFolder]
    rfl
  · rw [htasks, List.length_map, List.length_range]
  · intro i l c h1 h2
    have hi : i < s.combiSpaces.length := (List.getElem?_eq_some_iff.1 h1).1
    constructor
    · rw [htasks, List.getElem?_map, List.getElem?_range hi, Option.map_some, List.getD_eq_getElem?_getD, h1,
        List.getD_eq_getElem?_getD, h2]
      rfl
    · rw [a1 i (List.mem_range.2 hi), List.getD_eq_getElem?_getD, h1]
      rfl
  · intro i hi
    exact a2 i (by rw [List.mem_range]; omega)

/-- Grids and coefficients for the examples. -/
def scheme2 : Scheme := { Scheme.mk' [1, 1] [3, 3] with
  combiSpaces := [[1, 3], [2, 2], [3, 1], [1, 2], [2, 1]], coefficients := [1, 1, 1, -1, -1] }

example : (managerStart settings2 (render pieces2) scheme2 false (fun _ => false) none fun _ => none).bind
    (fun r => .ok (r.1 2, r.2[2]?)) =
    .ok (some "n = 2 8, p = 2, dt = 0.010000".toList, some ⟨[3, 1], 1, 2⟩) := by decide +kernel

example : (∀ l ∈ scheme2.combiSpaces, l.length = settings2.p.length) ∧
    scheme2.combiSpaces.length = scheme2.coefficients.length ∧
    ∀ l ∈ scheme2.combiSpaces, Values settings2 (l.map fun x => 2 ^ x)
      fun k => (subsOf settings2 (l.map fun x => 2 ^ x)).lookup k := by
  refine ⟨by decide, by decide, ?_⟩
  intro l hl
  match l, (by revert l; decide : ∀ l ∈ scheme2.combiSpaces, l.length = 2) l hl with
  | [a, b], _ => exact values_settings2 _ _

/-- Without a manager: every grid belongs to exactly one of the groups, which have at least one each; its folder gets
the file for the grid, and the task of the group has the grid with its coefficient and runs in that folder. -/
theorem C116_workers {S : Settings} (hname : '$' ∉ S.nameDiagnostics) {tp : List Piece}
    (ht : GoodTemplate S.p.length tp) (s : Scheme) (hlen : s.combiSpaces.length = s.coefficients.length)
    (hl : ∀ l ∈ s.combiSpaces, l.length = S.p.length) (hpos : ∀ l ∈ s.combiSpaces, ∀ x ∈ l, 0 < x)
    (value : List ℕ → List Char → Option (List Char))
    (hv : ∀ l ∈ s.combiSpaces, Values S (l.map fun x => 2 ^ x) (value l)) (hc : ℕ → Bool) (boundary order : List ℕ)
    (ho : order.Perm (List.range s.combiSpaces.length)) (G : ℕ) (hG : 1 ≤ G) (hGn : G ≤ s.combiSpaces.length)
    (F : Folders) :
    ∃ F' tasks, workersStart S (render tp) s false hc none boundary order G F = .ok (F', tasks) ∧
      tasks.length = G ∧ (∀ ts ∈ tasks, ts ≠ [] ∧ ts.Nodup ∧ ∀ t ∈ ts,
        s.combiSpaces[t.folder]? = some t.level ∧ s.coefficients[t.folder]? = some t.coeff ∧
        F' t.folder = some (fill (value t.level) tp)) ∧
      (∀ i < s.combiSpaces.length, ∃! g : ℕ, ∃ ts, tasks[g]? = some ts ∧ ∃ t ∈ ts, SelalibTask.folder t = i) ∧
      ∀ i, s.combiSpaces.length ≤ i → F' i = F i := by
  set dof : ℕ → ℕ := fun t => getCombiDegreesOfFreedom (s.combiSpaces.getD t []) boundary with hdof
  have hdpos : ∀ i < s.combiSpaces.length, 0 < dof i := by
    intro i hi
    rw [hdof]
    simp only
    rw [List.getD_eq_getElem _ _ hi]
    exact SchemeFile.dof_pos _ _ (hpos _ (List.getElem_mem hi))
  obtain ⟨b1, b2⟩ := balanced_nonempty dof s.combiSpaces.length G hG hGn order ho hdpos
  have hnd : ∀ g, (getLoadBalancedTasks dof order G g).Nodup :=
    (C08_load_balanced_unique dof s.combiSpaces.length G hG order ho 0 (by omega)).2
  set groups := (List.range G).map fun g => getLoadBalancedTasks dof order G g with hgr
  obtain ⟨F', e, a1, a2⟩ := groups_ok S (render tp) (fun l => fill (value l) tp) s hlen hc
    (fun l h => ⟨hl l h, adapt_value hname ht (by rw [List.length_map]; exact hl l h) (hv l h)⟩) groups (by
      intro g hg
      obtain ⟨k, hk, rfl⟩ := List.mem_map.1 hg
      exact ⟨b1 k (List.mem_range.1 hk), hnd k, b2 k⟩) F
  have hin : ∀ g ∈ groups, ∀ i ∈ g, i < s.combiSpaces.length := by
    intro g hg
    obtain ⟨k, hk, rfl⟩ := List.mem_map.1 hg
    exact b2 k
  have hgi : ∀ g, groups[g]? = if g < G then some (getLoadBalancedTasks dof order G g) else none := by
    intro g
    rw [hgr, List.getElem?_map]
    by_cases h : g < G
    · rw [if_pos h, List.getElem?_range h, Option.map_some]
    · rw [if_neg h, List.getElem?_eq_none (by simpa using h)]
      rfl
  have hmem : ∀ ts ∈ groups, ∀ i, (∃ t ∈ groupGrids s ts, t.folder = i) ↔ i ∈ ts := by
    intro ts hts i
    rw [groupGrids_eq s hlen ts (hin ts hts)]
    simp
  refine ⟨F', groups.map (groupGrids s), ?_, ?_, ?_, ?_, ?_⟩
  · unfold workersStart
    simp only
    rw [if_pos ⟨hlen, hGn⟩]
    exact congrArg (fun o => Outcome.bind o fun F => .ok (F, groups.map (groupGrids s))) e
  · rw [List.length_map, hgr, List.length_map, List.length_range]
  · intro ts hts
    obtain ⟨g, hg, rfl⟩ := List.mem_map.1 hts
    rw [groupGrids_eq s hlen g (hin g hg)]
    obtain ⟨k, hk, hkg⟩ := List.mem_map.1 hg
    refine ⟨?_, ?_, ?_⟩
    · rw [Ne, List.map_eq_nil_iff, ← hkg]
      exact b1 k (List.mem_range.1 hk)
    · refine List.Nodup.map ?_ (hkg ▸ hnd k)
      intro a b h
      exact congrArg SelalibTask.folder h
    · intro t ht'
      obtain ⟨i, hi, rfl⟩ := List.mem_map.1 ht'
      have hi' := hin g hg i hi
      simp only
      refine ⟨?_, ?_, a1 g hg i hi⟩
      · rw [List.getD_eq_getElem _ _ hi', List.getElem?_eq_getElem hi']
      · rw [List.getD_eq_getElem _ _ (hlen ▸ hi'), List.getElem?_eq_getElem (hlen ▸ hi')]
  · intro i hi
    obtain ⟨⟨g, ⟨h1, h2⟩, hu⟩, -⟩ := C08_load_balanced_unique dof s.combiSpaces.length G hG order ho i hi
    refine ⟨g, ?_, ?_⟩
    · refine ⟨groupGrids s (getLoadBalancedTasks dof order G g), ?_, ?_⟩
      · rw [List.getElem?_map, hgi, if_pos h1]
        rfl
      · exact (hmem _ (List.mem_map.2 ⟨g, List.mem_range.2 h1, rfl⟩) i).2 h2
    · rintro g' ⟨ts, q1, q2⟩
      rw [List.getElem?_map, hgi] at q1
      by_cases h : g' < G
      · rw [if_pos h, Option.map_some, Option.some.injEq] at q1
        subst q1
        exact hu g' ⟨h, (hmem _ (List.mem_map.2 ⟨g', List.mem_range.2 h, rfl⟩) i).1 q2⟩
      · rw [if_neg h] at q1
        cases q1
  · intro i hi
    exact a2 i fun g hg h => absurd (hin g hg i h) (by omega)

/-- A restart with a manager: if all folders have a checkpoint, the files say so in place of the first
`restart = .false.`, and folders without a task stay. -/
theorem C116_restart (S : Settings) (template : List Char) (s : Scheme)
    (hlen : s.combiSpaces.length = s.coefficients.length) (hc : ℕ → Bool)
    (hck : ∀ i < s.combiSpaces.length, hc i = true) (resolution : Option (List ℕ)) (F : Folders)
    (pre post : ℕ → List Char)
    (hF : ∀ i < s.combiSpaces.length, F i = some (pre i ++ "restart = .false.".toList ++ post i) ∧
      ∀ j < (pre i).length,
        ¬ "restart = .false.".toList <+: (pre i ++ "restart = .false.".toList ++ post i).drop j) :
    ∃ F' tasks, managerStart S template s true hc resolution F = .ok (F', tasks) ∧
      (∀ i l c, s.combiSpaces[i]? = some l → s.coefficients[i]? = some c → tasks[i]? = some ⟨l, c, i⟩ ∧
        F' i = some (pre i ++ "restart = .true.\n        restart_filename = \"distribution_end-0000.h5\"".toList ++
          post i)) ∧
      ∀ i, s.combiSpaces.length ≤ i → F' i = F i := by
  obtain ⟨F', e, a⟩ := restart_ok hc 0 s.combiSpaces.length F fun j _ hj => hck j (by omega)
  have htasks := groupGrids_eq s hlen (List.range s.combiSpaces.length) fun i hi => List.mem_range.1 hi
  refine ⟨F', groupGrids s (List.range s.combiSpaces.length), ?_, ?_, ?_⟩
  · unfold managerStart
    simp only [if_true, e, Outcome.bind]
    rfl
  · intro i l c h1 h2
    have hi : i < s.combiSpaces.length := (List.getElem?_eq_some_iff.1 h1).1
    constructor
    · rw [htasks, List.getElem?_map, List.getElem?_range hi, Option.map_some, List.getD_eq_getElem?_getD, h1,
        List.getD_eq_getElem?_getD, h2]
      rfl
    · rw [a i, if_pos ⟨Nat.zero_le _, by omega⟩, (hF i hi).1, Option.getD_some,
        replace_at (by decide) _ _ (hF i hi).2]
      rfl
  · intro i hi
    rw [a i, if_neg (by omega)]

/-- A missing checkpoint is an error. -/
theorem C116_restart_missing (S : Settings) (template : List Char) (s : Scheme) (hc : ℕ → Bool)
    (i : ℕ) (hi : i < s.combiSpaces.length) (hck : hc i = false) (resolution : Option (List ℕ)) (F : Folders) :
    managerStart S template s true hc resolution F = .error := by
  unfold managerStart
  simp only [if_true, restart_error hc 0 s.combiSpaces.length F i (Nat.zero_le _) (by omega) hck, Outcome.bind]

example : managerStart settings2 [] scheme2 true (fun i => i != 3) none (fun _ => none) = .error :=
  C116_restart_missing settings2 [] scheme2 _ 3 (by decide) rfl none _

example : (managerStart settings2 [] scheme2 true (fun _ => true) none
    fun _ => some "a\n restart = .false.\n b".toList).bind (fun r => .ok (r.1 4)) =
    .ok (some "a\n restart = .true.\n        restart_filename = \"distribution_end-0000.h5\"\n b".toList) := by
  decide +kernel

/-- A restart without a manager and with more than one group: every group changes the first folders, as many as it
has tasks, instead of those of its tasks. The file of the last grid is never changed, and its task starts from the
initial condition although all checkpoints are there. -/
theorem C116_restart_violated (S : Settings) (template : List Char) (s : Scheme)
    (hlen : s.combiSpaces.length = s.coefficients.length) (hpos : ∀ l ∈ s.combiSpaces, ∀ x ∈ l, 0 < x)
    (hc : ℕ → Bool) (hck : ∀ i < s.combiSpaces.length, hc i = true) (boundary order : List ℕ)
    (ho : order.Perm (List.range s.combiSpaces.length)) (G : ℕ) (hG : 2 ≤ G) (hGn : G ≤ s.combiSpaces.length)
    (F : Folders) :
    ∃ F' tasks, workersStart S template s true hc none boundary order G F = .ok (F', tasks) ∧
      F' (s.combiSpaces.length - 1) = F (s.combiSpaces.length - 1) ∧
      ∃ ts ∈ tasks, ∃ t ∈ ts, t.folder = s.combiSpaces.length - 1 := by
  set dof : ℕ → ℕ := fun t => getCombiDegreesOfFreedom (s.combiSpaces.getD t []) boundary with hdof
  have hdpos : ∀ i < s.combiSpaces.length, 0 < dof i := by
    intro i hi
    rw [hdof]
    simp only
    rw [List.getD_eq_getElem _ _ hi]
    exact SchemeFile.dof_pos _ _ (hpos _ (List.getElem_mem hi))
  obtain ⟨b1, b2⟩ := balanced_nonempty dof s.combiSpaces.length G (by omega) hGn order ho hdpos
  have b3 := balanced_fewer dof s.combiSpaces.length G hG hGn order ho hdpos
  set groups := (List.range G).map fun g => getLoadBalancedTasks dof order G g with hgr
  have hin : ∀ g ∈ groups, ∀ i ∈ g, i < s.combiSpaces.length := by
    intro g hg
    obtain ⟨k, hk, rfl⟩ := List.mem_map.1 hg
    exact b2 k
  obtain ⟨F', e, a⟩ := groups_restart S template s hlen hc (s.combiSpaces.length - 1)
    (fun i hi => hck i (by omega)) groups (by
      intro g hg
      refine ⟨?_, ?_, hin g hg⟩
      · obtain ⟨k, hk, rfl⟩ := List.mem_map.1 hg
        exact b1 k (List.mem_range.1 hk)
      · obtain ⟨k, hk, rfl⟩ := List.mem_map.1 hg
        have := b3 k (List.mem_range.1 hk)
        omega) F
  obtain ⟨⟨g, ⟨h1, h2⟩, -⟩, -⟩ := C08_load_balanced_unique dof s.combiSpaces.length G (by omega) order ho
    (s.combiSpaces.length - 1) (by omega)
  have hg : getLoadBalancedTasks dof order G g ∈ groups := List.mem_map.2 ⟨g, List.mem_range.2 h1, rfl⟩
  refine ⟨F', groups.map (groupGrids s), ?_, a _ (Nat.le_refl _), _, List.mem_map_of_mem hg, ?_⟩
  · unfold workersStart
    simp only
    rw [if_pos ⟨hlen, hGn⟩]
    exact congrArg (fun o => Outcome.bind o fun F => .ok (F, groups.map (groupGrids s))) e
  · rw [groupGrids_eq s hlen _ (hin _ hg)]
    exact ⟨_, List.mem_map_of_mem h2, rfl⟩

example : (workersStart settings2 [] scheme2 true (fun _ => true) none [2, 2] [1, 0, 2, 3, 4] 2
    fun _ => some "restart = .false.".toList).bind (fun r => .ok (r.1 4, r.2.map fun ts => ts.map (·.folder))) =
    .ok (some "restart = .false.".toList, [[1, 2], [0, 3, 4]]) := by
  decide +kernel

/-- A restart without a manager and with one group does what the program with a manager does. Missing: more than one
group (`C116_restart_violated`). -/
theorem C116_restart_workers_partial (S : Settings) (template : List Char) (s : Scheme)
    (hlen : s.combiSpaces.length = s.coefficients.length) (hne : s.combiSpaces ≠ [])
    (hpos : ∀ l ∈ s.combiSpaces, ∀ x ∈ l, 0 < x) (hc : ℕ → Bool) (boundary order : List ℕ)
    (ho : order.Perm (List.range s.combiSpaces.length)) (F F' : Folders) (tasks : List SelalibTask)
    (h : managerStart S template s true hc none F = .ok (F', tasks)) :
    ∃ tasks', workersStart S template s true hc none boundary order 1 F = .ok (F', [tasks']) ∧
      tasks'.Perm tasks := by
  have hn : 1 ≤ s.combiSpaces.length := List.length_pos_of_ne_nil hne
  set dof : ℕ → ℕ := fun t => getCombiDegreesOfFreedom (s.combiSpaces.getD t []) boundary with hdof
  have hdpos : ∀ i < s.combiSpaces.length, 0 < dof i := by
    intro i hi
    rw [hdof]
    simp only
    rw [List.getD_eq_getElem _ _ hi]
    exact SchemeFile.dof_pos _ _ (hpos _ (List.getElem_mem hi))
  obtain ⟨b1, b2⟩ := balanced_nonempty dof s.combiSpaces.length 1 (Nat.le_refl 1) hn order ho hdpos
  set group := getLoadBalancedTasks dof order 1 0 with hgr
  have hperm : group.Perm (List.range s.combiSpaces.length) := by
    refine (List.perm_ext_iff_of_nodup
      ((C08_load_balanced_unique dof s.combiSpaces.length 1 (Nat.le_refl 1) order ho 0 hn).2 0)
      List.nodup_range).2 fun i => ?_
    rw [List.mem_range]
    constructor
    · exact b2 0 i
    · intro hi
      obtain ⟨⟨g, ⟨h1, h2⟩, -⟩, -⟩ :=
        C08_load_balanced_unique dof s.combiSpaces.length 1 (Nat.le_refl 1) order ho i hi
      have : g = 0 := by omega
      subst this
      exact h2
  have hgl : group.length = s.combiSpaces.length := by rw [hperm.length_eq, List.length_range]
  unfold managerStart at h
  simp only [if_true] at h
  cases hr : setCheckpointRestart hc 0 s.combiSpaces.length F with
  | error => rw [hr] at h; cases h
  | stuck => rw [hr] at h; cases h
  | ok F1 =>
    rw [hr] at h
    simp only [Outcome.bind, Outcome.ok.injEq, Prod.mk.injEq] at h
    obtain ⟨rfl, rfl⟩ := h
    refine ⟨groupGrids s group, ?_, hperm.filterMap _⟩
    have he : groupsFiles S template s true hc none [group] F = .ok F1 := by
      rw [groupsFiles]
      unfold groupFiles
      simp only
      have hlg : (groupGrids s group).length = s.combiSpaces.length := by
        rw [groupGrids_eq s hlen group (b2 0), List.length_map, hgl]
      rw [hlg, if_neg (by omega), if_pos trivial, hr]
      rfl
    unfold workersStart
    simp only
    rw [if_pos ⟨hlen, hn⟩]
    exact congrArg (fun o => Outcome.bind o fun F => .ok (F, [groupGrids s group])) he

example : ((workersStart settings2 [] scheme2 true (fun _ => true) none [2, 2] [1, 0, 2, 3, 4] 1
    fun _ => some "restart = .false.".toList).bind fun r => .ok ((List.range 6).map fun i => (r.1 i).map List.length)) =
    .ok [some 70, some 70, some 70, some 70, some 70, some 17] := by
  decide +kernel

/-! ### A single grid -/

/-- With `ct.resolution` and one grid, folder 0 gets the file with this resolution. -/
theorem C116_fullgrid_partial {S : Settings} (hname : '$' ∉ S.nameDiagnostics) {tp : List Piece}
    (ht : GoodTemplate S.p.length tp) (s : Scheme) (l : List ℕ) (c : ℤ) (hs : s.combiSpaces = [l])
    (hco : s.coefficients = [c]) (hl : l.length = S.p.length)
    (value1 value2 : List Char → Option (List Char)) (hv1 : Values S (l.map fun x => 2 ^ x) value1)
    (resolution : List ℕ) (hr : resolution.length = S.p.length) (hv2 : Values S resolution value2)
    (hc : ℕ → Bool) (F : Folders) :
    ∃ F', managerStart S (render tp) s false hc (some resolution) F = .ok (F', [⟨l, c, 0⟩]) ∧
      F' 0 = some (fill value2 tp) ∧ ∀ i, 0 < i → F' i = F i := by
  obtain ⟨F1, e, a1, a2⟩ := create_ok S (render tp) (fun _ => fill value1 tp) s.combiSpaces
    (by
      rw [hs]
      intro l' h'
      rw [List.mem_singleton] at h'
      subst h'
      exact ⟨hl, adapt_value hname ht (by rw [List.length_map]; exact hl) hv1⟩)
    [0] (by rw [hs]; simp) (by simp) F
  refine ⟨Function.update F1 0 (some (fill value2 tp)), ?_, by simp, ?_⟩
  · have e' : createTaskFolders S (render tp) [l] [0] F = .ok F1 := by
      rw [hs] at e
      exact e
    unfold managerStart
    rw [hs, hco]
    simp only [Bool.false_eq_true, if_false, List.length_singleton, List.range_one, e', Outcome.bind, fullGridFolder,
      if_true, adapt_value hname ht hr hv2]
    rfl
  · intro i hi
    rw [Function.update_of_ne (by omega)]
    exact a2 i (by simpa using Nat.pos_iff_ne_zero.1 hi)

example : (managerStart settings2 (render pieces2) { scheme2 with combiSpaces := [[2, 2]], coefficients := [1] } false
    (fun _ => false) (some [5, 6]) fun _ => none).bind (fun r => .ok (r.1 0)) =
    .ok (some "n = 6 5, p = 2, dt = 0.010000".toList) := by decide +kernel

/-- The programs create the scheme from `lmin` and `lmax`, which have to be equal with `ct.resolution`; this scheme
has no grid, and both programs stop at an assertion. -/
theorem C116_resolution_violated (l : List ℕ) (hl : l ≠ []) (hpos : ∀ x ∈ l, 1 ≤ x) (fuel : ℕ) (s : Scheme)
    (hs : createClassicalCombischeme fuel l l = some s) (S : Settings) (template : List Char) (hc : ℕ → Bool)
    (resolution boundary order : List ℕ) (G : ℕ) (F : Folders) :
    managerStart S template s false hc (some resolution) F = .stuck ∧
      workersStart S template s false hc (some resolution) boundary order G F = .stuck := by
  have hfree : ∀ l : List ℕ, freeOf l l l = [] := by
    intro l
    induction l with
    | nil => rfl
    | cons a l ih => simp [freeOf, ih]
  have hval : ValidMinMax l l := ⟨hl, hpos, List.forall₂_same.2 fun _ _ => Nat.le_refl _⟩
  have h0 := classical_no_free l l hval (hfree l) fuel s hs
  have h1 : s.coefficients = [1] := by
    unfold createClassicalCombischeme at hs
    simp only [removeDummies_eq l l rfl, hfree, if_true, Option.some.injEq] at hs
    rw [← hs]
  constructor
  · unfold managerStart
    rw [h0]
    rfl
  · unfold workersStart
    simp only
    rw [if_neg (by rw [h0, h1]; simp)]

example : (createClassicalCombischeme 10 [4, 4] [4, 4]).isSome = true := by decide

/-! ### Diagnostics -/

section
variable {K : Type} [Field K] [LinearOrder K] [IsStrictOrderedRing K]

/-- Files of the same shape, with `R` lines and `C` numbers in each line, possibly between other words: entry `j`, `k`
of the output is the combination of the entries of the files, up to the rounding errors. Missing: lines without
numbers (`C116_header_violated`), files of different length (`C116_lines_violated`). -/
theorem C116_diagnostics_partial {u : K} (u0 : 0 ≤ u) (u1 : 16 * u ≤ 1) {A : Adder K} (hA : Rounds u A)
    (mul : K → K → K) (hmul : ∀ a b, |mul a b - a * b| ≤ u * |a * b|)
    (files : ℕ → Option (List (Line K))) (R C : ℕ) (hR : 1 ≤ R) (hC : 1 ≤ C) (v : ℕ → ℕ → ℕ → K)
    (coeffs : List K) (hne : coeffs ≠ []) (hn : 8 * (coeffs.length * u) ≤ 1)
    (h : ∀ i < coeffs.length, ∃ f, files i = some f ∧ HoldsNumbers f R C (v i)) :
    ∃ rows, combineDiagnostics A mul files coeffs = .ok rows ∧ rows.length = R ∧
      ∀ j < R, ∃ row, rows[j]? = some row ∧ row.length = C ∧ ∀ k < C, ∃ x, row[k]? = some x ∧
        |x - ((List.range coeffs.length).map fun i => v i j k * coeffs.getD i 0).sum| ≤
          (8 * u + 17 * coeffs.length * u ^ 2) *
            ((List.range coeffs.length).map fun i => |v i j k * coeffs.getD i 0|).sum := by
  cases coeffs with
  | nil => simp at hne
  | cons c cs =>
    refine ⟨_, combine_eq A mul files R C hR hC v c cs (by simpa using h), by simp, ?_⟩
    intro j hj
    refine ⟨_, by rw [List.getElem?_map, List.getElem?_range hj, Option.map_some], by simp, ?_⟩
    intro k hk
    refine ⟨_, by rw [List.getElem?_map, List.getElem?_range hk, Option.map_some], ?_⟩
    have := kahan_from_error u0 u1 hA mul hmul (v 0 j k, c)
      ((List.range cs.length).map fun i => (v (i + 1) j k, cs.getD i 0)) (by simpa using hn)
    simp only [List.map_cons, List.map_map, List.length_map, List.length_range] at this
    rw [List.length_cons, List.range_succ_eq_map]
    simpa [Function.comp_def] using this

omit K in
theorem classical_coefficients_sum (lmin lmax : List ℕ) (hl : lmax ≠ []) (hpos : ∀ x ∈ lmin, 1 ≤ x)
    (hlt : List.Forall₂ (· < ·) lmin lmax) (fuel : ℕ) (s : Scheme)
    (hs : createClassicalCombischeme fuel lmin lmax = some s) (hsne : s.combiSpaces ≠ []) :
    s.coefficients.sum = 1 := by
  have hvalid : ValidMinMax lmin lmax := ⟨hl, hpos, hlt.imp fun _ _ h => Nat.le_of_lt h⟩
  have hlen := (C63_one_coefficient_per_grid_partial lmin lmax hvalid (insertOk_of_lt lmin lmax hlt) (by
    rintro rfl
    cases hlt with
    | nil => simp at hl
    | cons h _ => exact absurd h (Nat.lt_irrefl _)) fuel s hs).1
  have hle : LminLeLmax (toInt lmin) lmax := by
    rw [LminLeLmax, toInt, List.forall₂_map_left_iff]
    exact hlt.imp fun a b h => by omega
  have hm := (isMinDiff_minElement lmax (toInt lmin) hle hl).1
  have hlenl : ∀ l ∈ s.combiSpaces, l.length = lmax.length := by
    intro l h
    have := ((C03_classical_grids lmin lmax hl hpos hlt _ hm fuel s hs l).1 h).1.length_eq
    simpa using this.symm
  have hzero : ∀ l ∈ s.combiSpaces, VecLe (List.replicate lmax.length 0) l := by
    intro l h
    rw [← hlenl l h]
    clear h
    induction l with
    | nil => exact List.Forall₂.nil
    | cons a l ih => exact List.Forall₂.cons (Nat.zero_le a) ih
  obtain ⟨g, hg⟩ := List.exists_mem_of_ne_nil _ hsne
  have := C03_classical_consistent lmin lmax hl hpos hlt fuel s hs (List.replicate lmax.length 0) g hg (hzero g hg)
  unfold coeffSumAbove at this
  rw [List.filter_eq_self.2 (by
    intro p hp
    rw [decide_eq_true_eq]
    exact hzero p.1 (List.of_mem_zip hp).1), List.map_snd_zip (by omega)] at this
  exact this

/-- A number that is the same in all files, as the time is: the output has it, up to the rounding errors, if the scheme
is the one the program makes from `lmin` and `lmax`. -/
theorem C116_time_partial {u : K} (u0 : 0 ≤ u) (u1 : 16 * u ≤ 1) {A : Adder K} (hA : Rounds u A)
    (mul : K → K → K) (hmul : ∀ a b, |mul a b - a * b| ≤ u * |a * b|)
    (files : ℕ → Option (List (Line K))) (R C : ℕ) (hR : 1 ≤ R) (hC : 1 ≤ C) (v : ℕ → ℕ → ℕ → K)
    (lmin lmax : List ℕ) (hl : lmax ≠ []) (hpos : ∀ x ∈ lmin, 1 ≤ x) (hlt : List.Forall₂ (· < ·) lmin lmax)
    (fuel : ℕ) (s : Scheme) (hs : createClassicalCombischeme fuel lmin lmax = some s) (hsne : s.combiSpaces ≠ [])
    (hn : 8 * (s.coefficients.length * u) ≤ 1)
    (h : ∀ i < s.coefficients.length, ∃ f, files i = some f ∧ HoldsNumbers f R C (v i))
    (j k : ℕ) (hj : j < R) (hk : k < C) (time : K) (htime : ∀ i < s.coefficients.length, v i j k = time) :
    ∃ rows row x, combineDiagnostics A mul files (s.coefficients.map fun c : ℤ => (c : K)) = .ok rows ∧
      rows[j]? = some row ∧ row[k]? = some x ∧
      |x - time| ≤ (8 * u + 17 * s.coefficients.length * u ^ 2) *
        (|time| * (s.coefficients.map fun c : ℤ => |(c : K)|).sum) := by
  have hvalid : ValidMinMax lmin lmax := ⟨hl, hpos, hlt.imp fun _ _ h => Nat.le_of_lt h⟩
  obtain ⟨hlen, -⟩ := C63_one_coefficient_per_grid_partial lmin lmax hvalid (insertOk_of_lt lmin lmax hlt) (by
    rintro rfl
    cases hlt with
    | nil => simp at hl
    | cons h _ => exact absurd h (Nat.lt_irrefl _)) fuel s hs
  have hone := classical_coefficients_sum lmin lmax hl hpos hlt fuel s hs hsne
  have hcne : s.coefficients ≠ [] := by
    intro h0
    rw [h0] at hlen
    exact hsne (List.length_eq_zero_iff.1 hlen)
  obtain ⟨rows, e, -, h1⟩ := C116_diagnostics_partial u0 u1 hA mul hmul files R C hR hC v
    (s.coefficients.map fun c : ℤ => (c : K)) (by simpa using hcne) (by simpa using hn) (by simpa using h)
  obtain ⟨row, e1, -, h2⟩ := h1 j hj
  obtain ⟨x, e2, h3⟩ := h2 k hk
  refine ⟨rows, row, x, e, e1, e2, ?_⟩
  rw [List.length_map] at h3
  have hs1 : ((List.range s.coefficients.length).map fun i =>
      v i j k * (s.coefficients.map fun c : ℤ => (c : K)).getD i 0) =
      s.coefficients.map fun c : ℤ => time * (c : K) := by
    refine List.ext_getElem (by simp) fun i q1 q2 => ?_
    have hi : i < s.coefficients.length := by simpa using q2
    rw [List.getElem_map, List.getElem_range, List.getElem_map, htime i hi,
      List.getD_eq_getElem _ _ (by simpa using hi), List.getElem_map]
  have hs2 : ((List.range s.coefficients.length).map fun i =>
      |v i j k * (s.coefficients.map fun c : ℤ => (c : K)).getD i 0|) =
      s.coefficients.map fun c : ℤ => |time| * |(c : K)| := by
    refine List.ext_getElem (by simp) fun i q1 q2 => ?_
    have hi : i < s.coefficients.length := by simpa using q2
    rw [List.getElem_map, List.getElem_range, List.getElem_map, htime i hi,
      List.getD_eq_getElem _ _ (by simpa using hi), List.getElem_map, abs_mul]
  have hcast : (s.coefficients.map fun c : ℤ => (c : K)).sum = 1 := by
    have : (s.coefficients.map fun c : ℤ => (c : K)).sum = ((s.coefficients.sum : ℤ) : K) := by
      generalize s.coefficients = l
      induction l with
      | nil => rw [List.map_nil, List.sum_nil, List.sum_nil, Int.cast_zero]
      | cons a l ih => rw [List.map_cons, List.sum_cons, List.sum_cons, Int.cast_add, ih]
    rw [this, hone, Int.cast_one]
  rw [hs1, hs2, List.sum_map_mul_left, List.sum_map_mul_left, hcast, mul_one] at h3
  exact h3

omit [LinearOrder K] [IsStrictOrderedRing K] in
/-- A missing file is an error. -/
theorem C116_diagnostics_missing (A : Adder K) (mul : K → K → K) (files : ℕ → Option (List (Line K)))
    (coeffs : List K) (i : ℕ) (hi : i < coeffs.length) (h : files i = none) :
    combineDiagnostics A mul files coeffs = .error := by
  have key : ∀ (cs : List K) (i0 : ℕ) (t : Table K), i0 ≤ i → i < i0 + cs.length →
      addFiles A mul files i0 cs t = .error := by
    intro cs
    induction cs with
    | nil => intro i0 t h1 h2; simp at h2; omega
    | cons c cs ih =>
      intro i0 t h1 h2
      rw [List.length_cons] at h2
      rw [addFiles]
      cases hf : files i0 with
      | none => rfl
      | some f =>
        refine ih (i0 + 1) _ ?_ (by omega)
        rcases Nat.eq_or_lt_of_le h1 with rfl | h3
        · rw [h] at hf
          cases hf
        · exact h3
  unfold combineDiagnostics
  rw [key coeffs 0 [] (Nat.zero_le _) (by omega)]
  rfl

end

example : combineDiagnostics (Adder.exact ℚ) (· * ·) (fun i => if i = 1 then none else some [[some 1]]) [1, 1, -1] =
    .error := C116_diagnostics_missing _ _ _ _ 1 (by decide) rfl

example : ∃ s, createClassicalCombischeme 10 [1, 1] [3, 3] = some s ∧ s.combiSpaces ≠ [] ∧
    HoldsNumbers [[some (3 : ℚ), none, some 4]] 1 2 fun _ k => 3 + k := by
  refine ⟨_, rfl, by decide, ?_⟩
  unfold HoldsNumbers
  decide +kernel

example : combineDiagnostics (Adder.exact ℚ) (· * ·) (fun i => some [[some 5, none, some (i : ℚ)], [some 7, some 1]])
    [1, 1, -1] = .ok [[5, -1], [7, 1]] := by decide +kernel

/-- A line without numbers (names of the columns, say) that all files have: the lines of the second file are added to
the lines before. Two equal files with coefficients 2 and -1 are not combined to the file. -/
theorem C116_header_violated : combineDiagnostics (Adder.exact ℚ) (· * ·)
    (fun _ => some [[none], [some 5], [some 7]]) [2, -1] = .ok [[10], [9], [-7]] := by
  decide +kernel

/-- A file with fewer lines than the first (of a run that stopped, say): no error, and the last line is not a
combination. -/
theorem C116_lines_violated : combineDiagnostics (Adder.exact ℚ) (· * ·)
    (fun i => some (if i = 0 then [[some 5], [some 7]] else [[some 5]])) [2, -1] = .ok [[5], [14]] := by
  decide +kernel

end Verif.Selalib
