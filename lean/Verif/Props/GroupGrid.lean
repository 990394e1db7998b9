import Verif.Lemmas.GroupGrid

/-!
# Properties C77, C78: gathering a distributed grid, and its boundary layers

The values of a distributed grid are given by a function `V` of the grid points that the buffers of all
processes represent (`Represents`; `represents_exists`: there is one for all buffers of the right length).

* `C77_gather`, `C77_plot_values`, `C77_corners`: the gathered full grid, the values in the plot file and the
  corner values are those of `V`.
* `C77_empty_violated`: gathering from a process without points is an erroneous MPI call.
* `C77_header_violated`: the header of the plot file is never what the tool that reads it expects.
* `C77_raw_slice_violated`: the tool that plots raw files takes the indices in the wrong order.
* `C78_lower_to_upper`: copying the lower boundary to the upper boundary.
* `C78_ghost_layer`: what is received in a ghost layer exchange.
-/

namespace Verif.GroupGrid

/-! ### C77 -/

/-- Buffers of the right length represent some function. -/
theorem represents_exists {K : Type} [Inhabited K] (g : List Dim1) (hg : FullParts g)
    (data : List ℕ → List K) (hlen : ∀ c, ValidCoords g c → (data c).length = (localSizes g c).prod) :
    ∃ V, Represents g data V := by
  have howner : ∀ x, ∃ c, IsPoint g x → (ValidCoords g c ∧ isGlobalIndexHere g c x = true) ∧
      ∀ c', ValidCoords g c' ∧ isGlobalIndexHere g c' x = true → c' = c := by
    intro x
    by_cases hx : IsPoint g x
    · obtain ⟨c, h1, h2⟩ := C12_unique_owner g hg.validGrid x hx
      exact ⟨c, fun _ => ⟨h1, h2⟩⟩
    · exact ⟨[], fun h => absurd h hx⟩
  choose owner hown using howner
  refine ⟨fun x => ((data (owner x))[sequentialIndex (localSizes g (owner x))
    (List.zipWith (· - ·) x (lowerBounds g (owner x)))]?).getD default,
    fun c hc => ⟨hlen c hc, fun y hy => ?_⟩⟩
  obtain ⟨h1, h2, h3⟩ := here_of_local g hg.validGrid c hc y hy
  have he := (hown _ h3).2 c ⟨hc, h2⟩
  simp only
  rw [← he]
  have hs : List.zipWith (· - ·) (List.zipWith (· + ·) (lowerBounds g c) y) (lowerBounds g c) = y := by
    have hl : (List.zipWith (· + ·) (lowerBounds g c) y).length = (lowerBounds g c).length := by simp [h1]
    refine ext_getD (by simp [h1]) fun i _ => ?_
    rw [getD_sub _ _ hl, getD_add _ _ h1.symm]
    omega
  rw [hs]
  have hlt : sequentialIndex (localSizes g c) y < (data c).length := by
    rw [hlen c hc]
    exact sequentialIndex_lt _ _ hy
  rw [List.getElem?_eq_getElem hlt]
  rfl

/-- Receiving the parts of some processes into an array of the size of the grid. -/
lemma receive_parts {K : Type} {g : List Dim1} (hg : FullParts g) {data : List ℕ → List K}
    {V : List ℕ → K} (hV : Represents g data V) (cs done : List (List ℕ))
    (hcs : ∀ c ∈ cs, ValidCoords g c) (buf : List K) (hb : buf.length = (globalSizes g).prod)
    (hd : ∀ x, IsPoint g x → (∃ c ∈ done, isGlobalIndexHere g c x = true) →
      buf[sequentialIndex (globalSizes g) x]? = some (V x)) :
    ∃ r, cs.foldlM (gatherFrom g data (globalSizes g)) buf = some r ∧
      r.length = (globalSizes g).prod ∧
      ∀ x, IsPoint g x → (∃ c ∈ done ++ cs, isGlobalIndexHere g c x = true) →
        r[sequentialIndex (globalSizes g) x]? = some (V x) := by
  induction cs generalizing done buf with
  | nil => exact ⟨buf, rfl, hb, by simpa using hd⟩
  | cons c cs ih =>
    have hc := hcs c (by simp)
    have hin := inside_part hg hc
    obtain ⟨hl, hv⟩ := hV c hc
    obtain ⟨r, a1, a2, a3, a4⟩ := receive_subarray hin buf (data c) hb hl
    have hstep : gatherFrom g data (globalSizes g) buf c = some r := by
      unfold gatherFrom
      rw [← localSizes, createSubarray_eq hin]
      exact a1
    obtain ⟨r', b1, b2, b3⟩ := ih (done ++ [c]) (fun c h => hcs c (by simp [h])) r a2 (by
      rintro x hx ⟨c', hc', hh⟩
      by_cases hhere : isGlobalIndexHere g c x = true
      · obtain ⟨y, hy, rfl⟩ := (here_iff hg.validGrid hc hx).1 hhere
        rw [a3 y hy, hv y hy]
      · rw [a4 x hx fun y hy he => hhere ((here_iff hg.validGrid hc hx).2 ⟨y, hy, he⟩)]
        refine hd x hx ⟨c', ?_, hh⟩
        rw [List.mem_append, List.mem_singleton] at hc'
        rcases hc' with hc' | rfl
        · exact hc'
        · exact absurd hh hhere)
    refine ⟨r', ?_, b2, by simpa using b3⟩
    rw [List.foldlM_cons, hstep]
    exact b1

/-- C77: after `gatherFullGrid` the full grid has at every point the value of the process that owns the
point, for every process grid and in whichever order the messages arrive. -/
theorem C77_gather {K : Type} (g : List Dim1) (hg : FullParts g) (cs : List (List ℕ))
    (hcs : ∀ c, c ∈ cs ↔ ValidCoords g c) (data : List ℕ → List K) (V : List ℕ → K)
    (hV : Represents g data V) (fg : List K) (hfg : fg.length = (globalSizes g).prod) :
    ∃ r, gatherFullGrid g cs data (globalSizes g) fg = some r ∧ r.length = (globalSizes g).prod ∧
      ∀ x, IsPoint g x → r[sequentialIndex (globalSizes g) x]? = some (V x) := by
  obtain ⟨r, a1, a2, a3⟩ := receive_parts hg hV cs [] (fun c h => (hcs c).1 h) fg hfg (by simp)
  refine ⟨r, a1, a2, fun x hx => a3 x hx ?_⟩
  obtain ⟨c, ⟨h1, h2⟩, -⟩ := C12_unique_owner g hg.validGrid x hx
  exact ⟨c, by simpa using (hcs c).2 h1, h2⟩

/-- C77: the values in the plot file, the first dimension fastest. -/
theorem C77_plot_values {K : Type} (g : List Dim1) (hg : FullParts g) (cs : List (List ℕ))
    (hcs : ∀ c, c ∈ cs ↔ ValidCoords g c) (data : List ℕ → List K) (V : List ℕ → K)
    (hV : Represents g data V) (file : List K) (hfile : file.length = (globalSizes g).prod) :
    ∃ r, plotValues g cs data file = some r ∧ r.length = (globalSizes g).prod ∧
      ∀ x, IsPoint g x → r[sequentialIndex (globalSizes g) x]? = some (V x) :=
  C77_gather g hg cs hcs data V hV file hfile

lemma cornersRec_eq (sizes : List ℕ) (acc : List (List ℕ)) :
    cornersRec sizes acc = acc.flatMap fun v => (cornersRec sizes [[]]).map (v ++ ·) := by
  induction sizes generalizing acc with
  | nil => simp [cornersRec]
  | cons n ns ih =>
    rw [cornersRec, cornersRec, ih, ih (List.flatMap _ _)]
    simp only [List.flatMap_assoc]
    congr 1
    funext v
    simp [List.map_map, Function.comp_def, List.append_assoc]

/-- Specification: the corners in the order of the code, the last dimension fastest. -/
lemma corners_cons (n : ℕ) (ns : List ℕ) :
    corners (n :: ns) = (corners ns).map (0 :: ·) ++ (corners ns).map ((n - 1) :: ·) := by
  unfold corners
  rw [cornersRec, cornersRec_eq]
  simp

/-- The corners are exactly the points with every coordinate at one of the ends. -/
lemma mem_corners (sizes x : List ℕ) : x ∈ corners sizes ↔
    List.Forall₂ (fun xi n => xi = 0 ∨ xi = n - 1) x sizes := by
  induction sizes generalizing x with
  | nil => simp [corners, cornersRec]
  | cons n ns ih =>
    rw [corners_cons, List.mem_append, List.mem_map, List.mem_map, List.forall₂_cons_right_iff]
    constructor
    · rintro (⟨y, hy, rfl⟩ | ⟨y, hy, rfl⟩)
      · exact ⟨0, y, Or.inl rfl, (ih y).1 hy, rfl⟩
      · exact ⟨n - 1, y, Or.inr rfl, (ih y).1 hy, rfl⟩
    · rintro ⟨x0, xs, h0 | h0, hxs, rfl⟩
      · exact Or.inl ⟨xs, (ih xs).2 hxs, by rw [h0]⟩
      · exact Or.inr ⟨xs, (ih xs).2 hxs, by rw [h0]⟩

lemma sum_single {K : Type} [AddCommMonoid K] {α : Type} [DecidableEq α] (l : List α) (hn : l.Nodup)
    (f : α → K) (a : α) (ha : a ∈ l) (h : ∀ b ∈ l, b ≠ a → f b = 0) : (l.map f).sum = f a := by
  induction l with
  | nil => simp at ha
  | cons b l ih =>
    rw [List.map_cons, List.sum_cons]
    obtain ⟨hb, hn⟩ := List.nodup_cons.1 hn
    by_cases hab : b = a
    · subst hab
      have : (l.map f).sum = 0 := by
        refine List.sum_eq_zero fun x hx => ?_
        obtain ⟨y, hy, rfl⟩ := List.mem_map.1 hx
        exact h y (by simp [hy]) fun hc => hb (hc ▸ hy)
      rw [this, add_zero]
    · have hal : a ∈ l := by
        rcases List.mem_cons.1 ha with rfl | h'
        · exact absurd rfl hab
        · exact h'
      rw [h b (by simp) hab, zero_add, ih hn hal fun c hc => h c (by simp [hc])]

lemma mapM_eq_map {α β : Type} (l : List α) (f : α → Option β) (F : α → β)
    (h : ∀ a ∈ l, f a = some (F a)) : l.mapM f = some (l.map F) := by
  induction l with
  | nil => rfl
  | cons a l ih =>
    rw [List.mapM_cons, h a (by simp), ih fun b hb => h b (by simp [hb])]
    rfl

/-- C77: every process gets the values at the `2 ^ d` corners, each once. -/
theorem C77_corners {K : Type} [AddCommMonoid K] (g : List Dim1) (hg : FullParts g)
    (cs : List (List ℕ)) (hnd : cs.Nodup) (hcs : ∀ c, c ∈ cs ↔ ValidCoords g c)
    (data : List ℕ → List K) (V : List ℕ → K) (hV : Represents g data V) :
    getCornersValues g cs data = some ((corners (globalSizes g)).map V) ∧
      (corners (globalSizes g)).length = 2 ^ g.length ∧
      ∀ x, x ∈ corners (globalSizes g) ↔
        List.Forall₂ (fun xi n => xi = 0 ∨ xi = n - 1) x (globalSizes g) := by
  refine ⟨?_, ?_, mem_corners _⟩
  · unfold getCornersValues
    refine mapM_eq_map _ _ _ fun x hx => ?_
    have hpt : IsPoint g x := by
      have hpos : ∀ d ∈ g, 0 < d.numPoints := by
        intro d hd
        obtain ⟨h1, -, h3⟩ := hg d hd
        exact lt_of_le_of_lt (Nat.zero_le 0) (h3 0 (List.mem_of_mem_head? h1))
      have := (mem_corners _ _).1 hx
      unfold IsPoint
      unfold globalSizes at this ⊢
      rw [List.forall₂_map_right_iff] at this ⊢
      clear hx hV hcs hg
      induction this with
      | nil => exact List.Forall₂.nil
      | cons h1 h2 ih =>
        rename_i a d l ds
        refine List.Forall₂.cons ?_ (ih fun d hd => hpos d (by simp [hd]))
        have := hpos d (by simp)
        omega
    obtain ⟨c, ⟨h1, h2⟩, huniq⟩ := C12_unique_owner g hg.validGrid x hpt
    have hval : ∀ c' ∈ cs, cornerValue g data c' x = some (if c' = c then V x else 0) := by
      intro c' hc'
      unfold cornerValue
      have hv' := (hcs c').1 hc'
      by_cases he : c' = c
      · subst he
        rw [if_pos h2, if_pos rfl]
        obtain ⟨y, hy, rfl⟩ := (here_iff hg.validGrid hv' hpt).1 h2
        have hl := (here_of_local g hg.validGrid c' hv' y hy).1
        have hs : List.zipWith (· - ·) (List.zipWith (· + ·) (lowerBounds g c') y)
            (lowerBounds g c') = y := by
          have hl' : (List.zipWith (· + ·) (lowerBounds g c') y).length = (lowerBounds g c').length := by
            simp [hl]
          refine ext_getD (by simp [hl]) fun i _ => ?_
          rw [getD_sub _ _ hl', getD_add _ _ hl.symm]
          omega
        rw [hs]
        exact (hV c' hv').2 y hy
      · rw [if_neg he, if_neg]
        intro hh
        exact he (huniq c' ⟨hv', hh⟩)
    rw [mapM_eq_map cs _ _ hval, Option.map_some,
      sum_single cs hnd _ c ((hcs c).2 h1) fun b _ hb => if_neg hb, if_pos rfl]
  · have : ∀ sizes : List ℕ, (corners sizes).length = 2 ^ sizes.length := by
      intro sizes
      induction sizes with
      | nil => rfl
      | cons n ns ih =>
        rw [corners_cons, List.length_append, List.length_map, List.length_map, ih, List.length_cons,
          pow_succ]
        omega
    rw [this]
    simp [globalSizes]

/-- C77 is violated for processes without points (which downsampled decompositions have): the subarray is
not legal. -/
theorem C77_empty_violated : ∃ (g : List Dim1) (cs : List (List ℕ)) (data : List ℕ → List ℚ)
    (V : List ℕ → ℚ) (fg : List ℚ), ValidGrid g ∧ (∀ c, c ∈ cs ↔ ValidCoords g c) ∧
      Represents g data V ∧ fg.length = (globalSizes g).prod ∧
      gatherFullGrid g cs data (globalSizes g) fg = none := by
  refine ⟨[⟨[0, 0], 1⟩], [[0], [1]], fun c => if c = [1] then [5] else [], fun _ => 5, [0], ?_, ?_, ?_, rfl,
    by decide⟩
  · intro d hd
    obtain rfl := List.mem_singleton.1 hd
    exact ⟨rfl, by decide, by decide⟩
  · intro c
    rw [← mem_allCoords]
    simp [allCoords, List.range_succ]
  · intro c hc
    rw [← mem_allCoords] at hc
    have : c = [0] ∨ c = [1] := by simpa [allCoords, List.range_succ] using hc
    rcases this with rfl | rfl
    · refine ⟨by decide, fun y hy => ?_⟩
      have e : localSizes [⟨[0, 0], 1⟩] [0] = [0] := by decide
      rw [e, forall₂_lt_iff] at hy
      have := hy.2 0 (by simp)
      simp at this
    · refine ⟨by decide, fun y hy => ?_⟩
      have e : localSizes [⟨[0, 0], 1⟩] [1] = [1] := by decide
      rw [e, List.forall₂_cons_right_iff] at hy
      obtain ⟨a, l, h1, h2, rfl⟩ := hy
      rw [List.forall₂_nil_right_iff] at h2
      subst h2
      obtain rfl : a = 0 := by omega
      decide

lemma mapM_length {α β : Type} {l : List α} {f : α → Option β} {m : List β} (h : l.mapM f = some m) :
    m.length = l.length := by
  induction l generalizing m with
  | nil =>
    obtain rfl : [] = m := Option.some.inj h
    rfl
  | cons a l ih =>
    rw [List.mapM_cons] at h
    cases hf : f a with
    | none => rw [hf] at h; cases h
    | some b =>
      cases hm : l.mapM f with
      | none => rw [hf, hm] at h; cases h
      | some m0 =>
        rw [hf, hm] at h
        obtain rfl : b :: m0 = m := Option.some.inj h
        simp [ih hm]

/-- C77 is violated for the header of plot files: for fewer than six dimensions, writing it reads past the
end of a vector; otherwise the reader does not get the dimension or the sizes. -/
theorem C77_header_violated (sizes : List ℕ) (hpos : ∀ n ∈ sizes, 0 < n ∧ n < 2 ^ 24) :
    (sizes.length < 6 → plotHeader sizes = .stuck) ∧
    (6 ≤ sizes.length → sizes.length < 256 → ∃ bytes, plotHeader sizes = .ok bytes ∧
      ∀ rest, readHeader (bytes ++ rest) ≠ some sizes) := by
  refine ⟨fun h => by unfold plotHeader; rw [if_pos h], fun h h256 => ?_⟩
  refine ⟨_, by unfold plotHeader; rw [if_neg (by omega)], fun rest => ?_⟩
  obtain ⟨n, ns, rfl⟩ : ∃ n ns, sizes = n :: ns := by
    cases sizes with
    | nil => simp at h
    | cons n ns => exact ⟨n, ns, rfl⟩
  obtain ⟨hn0, hn1⟩ := hpos n (by simp)
  intro hc
  unfold readHeader at hc
  have hd : readInt ((n :: ns).length % 256 :: ((n :: ns).take 6).flatMap le32 ++ rest) 0 =
      some ((n :: ns).length + 256 * n) := by
    unfold readInt
    simp [le32]
    simp at h256
    omega
  rw [hd] at hc
  have := mapM_length (show (List.range ((n :: ns).length + 256 * n)).mapM _ = some (n :: ns) from hc)
  rw [List.length_range] at this
  omega

lemma readInt_le32 (n : ℕ) (hn : n < 2 ^ 32) (front rest : List ℕ) :
    readInt (front ++ (le32 n ++ rest)) front.length = some n := by
  unfold readInt le32
  simp only [List.getElem?_append_right (le_refl _), List.getElem?_append_right (Nat.le_add_right _ _),
    Nat.sub_self, Nat.add_sub_cancel_left]
  simp
  omega

lemma readInts_le32 (sizes : List ℕ) (hs : ∀ n ∈ sizes, n < 2 ^ 32) (front rest : List ℕ) :
    (List.range sizes.length).mapM (fun i => readInt (front ++ (sizes.flatMap le32 ++ rest))
      (front.length + 4 * i)) = some sizes := by
  induction sizes generalizing front with
  | nil => rfl
  | cons n sizes ih =>
    have h1 := ih (fun m hm => hs m (by simp [hm])) (front ++ le32 n)
    rw [List.length_cons, List.range_succ_eq_map, List.mapM_cons, List.mapM_map, List.flatMap_cons,
      List.append_assoc]
    have h2 := readInt_le32 n (hs n (by simp)) front (sizes.flatMap le32 ++ rest)
    have h3 : ((fun i => readInt (front ++ (le32 n ++ (sizes.flatMap le32 ++ rest))) (front.length + 4 * i)) ∘
        Nat.succ) = fun i => readInt (front ++ le32 n ++ (sizes.flatMap le32 ++ rest))
          ((front ++ le32 n).length + 4 * i) := by
      funext i
      simp only [Function.comp, List.append_assoc, List.length_append]
      rw [show (le32 n).length = 4 from rfl, show front.length + 4 * i.succ = front.length + 4 + 4 * i by omega]
    rw [mul_zero, add_zero, h2, h3, h1]
    rfl

/-- The values of a plot file begin where the header ends that the readers expect (the dimension and the sizes
as integers of four bytes); the bytes that are written in front of them do not reach that far. -/
theorem C77_offset (sizes : List ℕ) (hlen : sizes.length < 2 ^ 32) (hs : ∀ n ∈ sizes, n < 2 ^ 32) (rest : List ℕ) :
    (∃ front : List ℕ, front.length = plotOffset sizes ∧ readHeader (front ++ rest) = some sizes) ∧
      ∀ bytes, plotHeader sizes = .ok bytes → bytes.length < plotOffset sizes := by
  constructor
  · refine ⟨le32 sizes.length ++ sizes.flatMap le32, ?_, ?_⟩
    · unfold plotOffset
      have : ∀ l : List ℕ, (l.flatMap le32).length = l.length * 4 := by
        intro l
        induction l with
        | nil => rfl
        | cons n l ih =>
          rw [List.flatMap_cons, List.length_append, ih, List.length_cons, show (le32 n).length = 4 from rfl]
          omega
      rw [List.length_append, this, show (le32 sizes.length).length = 4 from rfl]
      omega
    · unfold readHeader
      have h1 := readInt_le32 sizes.length hlen [] (sizes.flatMap le32 ++ rest)
      have h2 := readInts_le32 sizes hs (le32 sizes.length) rest
      rw [List.append_assoc]
      simp only [List.nil_append, List.length_nil] at h1
      rw [h1]
      simp only [Option.bind_eq_bind, Option.bind_some]
      rw [← h2]
      congr 1
      funext i
      rw [show (le32 sizes.length).length = 4 from rfl, show 4 * (1 + i) = 4 + 4 * i by omega]
  · intro bytes hb
    unfold plotHeader at hb
    split at hb
    · cases hb
    · rename_i h
      injection hb with hb
      rw [← hb]
      obtain ⟨a, b, c, d, e, f, r, rfl⟩ : ∃ a b c d e f r, sizes = a :: b :: c :: d :: e :: f :: r := by
        match sizes, h with
        | a :: b :: c :: d :: e :: f :: r, _ => exact ⟨a, b, c, d, e, f, r, rfl⟩
        | [], h => simp at h
        | [_], h => simp at h
        | [_, _], h => simp at h
        | [_, _, _], h => simp at h
        | [_, _, _, _], h => simp at h
        | [_, _, _, _, _], h => simp at h
      simp [le32, plotOffset]
      omega

example : ∃ bytes, plotHeader [3, 3, 3, 3, 3, 300] = .ok bytes := ⟨_, rfl⟩

/-- C77 is violated for `plot_raw_slice.py`: the value at index `[1, 0]` of a grid of 3 times 2 points is
taken from the place of the point `[2, 0]`. -/
theorem C77_raw_slice_violated : ∃ sizes x y : List ℕ, List.Forall₂ (· < ·) x sizes ∧
    List.Forall₂ (· < ·) y sizes ∧ x ≠ y ∧ rawSliceIndex sizes x = sequentialIndex sizes y :=
  ⟨[3, 2], [1, 0], [2, 0], by simp, by simp, by simp, by decide⟩

/-! ### C78 -/

lemma getD_zeros (l : List ℕ) (i : ℕ) : (l.map fun _ => 0).getD i 0 = 0 := by
  rw [List.getD_eq_getElem?_getD, List.getElem?_map]
  cases l[i]? <;> rfl

/-- The layers of a process, and the process it sends to or receives from. -/
lemma upward_eq {g : List Dim1} (hg : FullParts g) {c : List ℕ} (hc : ValidCoords g c) {d : ℕ}
    (hd : d < g.length) :
    let starts := ((localSizes g c).map fun _ => 0).set d ((localSizes g c).getD d 0 - 1)
    Inside (localSizes g c) ((localSizes g c).set d 1) starts ∧
      upwardSubarray g c d =
        some (subarrayPositions (localSizes g c) ((localSizes g c).set d 1) starts) := by
  intro starts
  obtain ⟨hl, hb⟩ := (validCoords_iff g c).1 hc
  have lL := length_lowerBounds g c hl
  have lU := length_upperBounds g c hl
  have lS := length_localSizes g c hl
  have hz := getD_zeros (localSizes g c)
  have hin : Inside (localSizes g c) ((localSizes g c).set d 1) starts := by
    refine ⟨by simp, by simp [starts], fun i hi => ?_⟩
    rw [lS] at hi
    obtain ⟨h1, -⟩ := bounds_full hg i hi _ (hb i hi)
    have hs := getD_localSizes g c hl i hi
    rw [getD_set _ _ _ _ (by rw [lS]; exact hd),
      getD_set _ _ _ _ (by rw [List.length_map, lS]; exact hd), hz]
    split
    · rename_i he
      subst he
      omega
    · omega
  refine ⟨hin, ?_⟩
  have e1 : List.zipWith (· - ·) (upperBounds g c)
      ((lowerBounds g c).modify d (· + ((localSizes g c).getD d 0 - 1))) = (localSizes g c).set d 1 := by
    refine ext_getD (by simp [lL, lU, lS]) fun i hi => ?_
    replace hi : i < g.length := by simpa [lU, lL] using hi
    obtain ⟨h1, -⟩ := bounds_full hg i hi _ (hb i hi)
    rw [getD_sub _ _ (by simp [lL, lU]), getD_modify _ _ _ _ (by rw [lL]; exact hd),
      getD_set _ _ _ _ (by rw [lS]; exact hd), getD_upperBounds g c hl i hi]
    split
    · rename_i he
      subst he
      rw [getD_lowerBounds g c hl i hi, getD_localSizes g c hl i hi]
      omega
    · rw [getD_lowerBounds g c hl i hi, getD_localSizes g c hl i hi]
  have e2 : List.zipWith (· - ·) ((lowerBounds g c).modify d (· + ((localSizes g c).getD d 0 - 1)))
      (lowerBounds g c) = starts := by
    refine ext_getD (by simp [lL, lS, starts]) fun i hi => ?_
    rw [getD_sub _ _ (by simp), getD_modify _ _ _ _ (by rw [lL]; exact hd),
      getD_set _ _ _ _ (by rw [List.length_map, lS]; exact hd), hz]
    split
    · rename_i he
      subst he
      omega
    · omega
  unfold upwardSubarray
  simp only
  rw [e1, e2, if_pos (by rw [getD_set _ _ _ _ (by rw [lS]; exact hd), if_pos rfl]), createSubarray_eq hin]

lemma downward_eq {g : List Dim1} (hg : FullParts g) {c : List ℕ} (hc : ValidCoords g c) {d : ℕ}
    (hd : d < g.length) :
    Inside (localSizes g c) ((localSizes g c).set d 1) ((localSizes g c).map fun _ => 0) ∧
      downwardSubarray g c d =
        some (subarrayPositions (localSizes g c) ((localSizes g c).set d 1)
          ((localSizes g c).map fun _ => 0)) := by
  obtain ⟨hl, hb⟩ := (validCoords_iff g c).1 hc
  have lL := length_lowerBounds g c hl
  have lU := length_upperBounds g c hl
  have lS := length_localSizes g c hl
  have hz := getD_zeros (localSizes g c)
  have hin : Inside (localSizes g c) ((localSizes g c).set d 1) ((localSizes g c).map fun _ => 0) := by
    refine ⟨by simp, by simp, fun i hi => ?_⟩
    rw [lS] at hi
    obtain ⟨h1, -⟩ := bounds_full hg i hi _ (hb i hi)
    have hs := getD_localSizes g c hl i hi
    rw [getD_set _ _ _ _ (by rw [lS]; exact hd), hz]
    split
    · omega
    · omega
  refine ⟨hin, ?_⟩
  have e1 : List.zipWith (· - ·) ((upperBounds g c).modify d (· - ((localSizes g c).getD d 0 - 1)))
      (lowerBounds g c) = (localSizes g c).set d 1 := by
    refine ext_getD (by simp [lL, lU, lS]) fun i hi => ?_
    replace hi : i < g.length := by simpa [lU, lL] using hi
    obtain ⟨h1, -⟩ := bounds_full hg i hi _ (hb i hi)
    rw [getD_sub _ _ (by simp [lL, lU]), getD_modify _ _ _ _ (by rw [lU]; exact hd),
      getD_set _ _ _ _ (by rw [lS]; exact hd), getD_lowerBounds g c hl i hi]
    split
    · rename_i he
      subst he
      rw [getD_upperBounds g c hl i hi, getD_localSizes g c hl i hi]
      omega
    · rw [getD_upperBounds g c hl i hi, getD_localSizes g c hl i hi]
  have e2 : List.zipWith (· - ·) (lowerBounds g c) (lowerBounds g c) =
      (localSizes g c).map fun _ => 0 := by
    refine ext_getD (by simp [lL, lS]) fun i hi => ?_
    rw [getD_sub _ _ rfl, hz]
    omega
  unfold downwardSubarray
  simp only
  rw [e1, e2, if_pos (by rw [getD_set _ _ _ _ (by rw [lS]; exact hd), if_pos rfl]), createSubarray_eq hin]

/-- Another process of the same line in dimension `d`. -/
lemma moved {g : List Dim1} {c : List ℕ} (hc : ValidCoords g c) {d k : ℕ} (hd : d < g.length)
    (hk : k < (procsOf g).getD d 0) :
    ValidCoords g (c.set d k) ∧ (c.set d k).getD d 0 = k ∧
      (localSizes g (c.set d k)).set d 1 = (localSizes g c).set d 1 ∧
      ∀ i < g.length, (lowerBounds g (c.set d k)).getD i 0 =
        if i = d then lo1 g d k else (lowerBounds g c).getD i 0 := by
  obtain ⟨hl, hb⟩ := (validCoords_iff g c).1 hc
  have hl' : (c.set d k).length = g.length := by rw [List.length_set, hl]
  have hget : ∀ i, (c.set d k).getD i 0 = if i = d then k else c.getD i 0 :=
    fun i => getD_set _ _ _ _ (by rw [hl]; exact hd)
  refine ⟨(validCoords_iff g _).2 ⟨hl', fun i hi => ?_⟩, by rw [hget, if_pos rfl], ?_, fun i hi => ?_⟩
  · rw [hget]
    split
    · rename_i he
      rw [he]
      exact hk
    · exact hb i hi
  · refine ext_getD (by simp [length_localSizes, hl]) fun i hi => ?_
    have hi : i < g.length := by simpa [length_localSizes, hl] using hi
    rw [getD_set _ _ _ _ (by rw [length_localSizes g _ hl']; exact hd),
      getD_set _ _ _ _ (by rw [length_localSizes g _ hl]; exact hd)]
    split
    · rfl
    · rename_i he
      rw [getD_localSizes g _ hl' i hi, getD_localSizes g _ hl i hi, hget, if_neg he]
  · rw [getD_lowerBounds g _ hl' i hi, hget]
    split
    · rename_i he
      rw [he]
    · rw [getD_lowerBounds g c hl i hi]

lemma sendrecv_none {K : Type} {dest source : List ℕ → Option (List ℕ)}
    {msg : List ℕ → Option (List K)} {c : List ℕ} (h : ∀ r, dest c = some r → source r = some c)
    (hs : source c = none) : sendrecv dest source msg c = some none := by
  unfold sendrecv
  rw [hs]
  cases hd : dest c with
  | none => rfl
  | some r => simp [h r hd]

lemma sendrecv_some {K : Type} {dest source : List ℕ → Option (List ℕ)}
    {msg : List ℕ → Option (List K)} {c r : List ℕ} {m : List K}
    (h : ∀ r, dest c = some r → source r = some c)
    (hs : source c = some r) (hd : dest r = some c) (hm : msg r = some m) :
    sendrecv dest source msg c = some (some m) := by
  unfold sendrecv
  rw [hs]
  simp only [hd, hm]
  cases hd : dest c with
  | none => rfl
  | some r => simp [h r hd]

lemma set_set_self {c : List ℕ} {d k k' : ℕ} (hd : d < c.length) (hk : c.getD d 0 = k') :
    (c.set d k).set d k' = c := by
  rw [List.set_set]
  refine ext_getD (by simp) fun i _ => ?_
  rw [getD_set _ _ _ _ hd]
  split
  · rename_i he
    rw [he, hk]
  · rfl

/-- C78: after `writeLowerBoundaryToUpperBoundary(d)` (the communicator is not periodic in `d`) every
point at the upper end in dimension `d` has the value of the point at the lower end, and all other values
are what they were; every process terminates. -/
theorem C78_lower_to_upper {K : Type} (g : List Dim1) (hg : FullParts g) (d : ℕ) (hd : d < g.length)
    (hN : 2 ≤ (globalSizes g).getD d 0) (data : List ℕ → List K) (V : List ℕ → K)
    (hV : Represents g data V) :
    ∃ data' : List ℕ → List K,
      (∀ c, ValidCoords g c → writeLowerToUpper g false data d c = some (data' c)) ∧
      Represents g data' fun x =>
        if x.getD d 0 = (globalSizes g).getD d 0 - 1 then V (x.set d 0) else V x := by
  have key : ∀ c, ValidCoords g c → ∃ buf, writeLowerToUpper g false data d c = some buf ∧
      buf.length = (localSizes g c).prod ∧
      ∀ y, List.Forall₂ (· < ·) y (localSizes g c) → buf[sequentialIndex (localSizes g c) y]? =
        some (if (List.zipWith (· + ·) (lowerBounds g c) y).getD d 0 = (globalSizes g).getD d 0 - 1
          then V ((List.zipWith (· + ·) (lowerBounds g c) y).set d 0)
          else V (List.zipWith (· + ·) (lowerBounds g c) y)) := by
    intro c hc
    obtain ⟨hl, hb⟩ := (validCoords_iff g c).1 hc
    have hdc : d < c.length := by rw [hl]; exact hd
    have hcd := hb d hd
    obtain ⟨b1, b2, b3, b4, b5, b6⟩ := bounds_full hg d hd _ hcd
    obtain ⟨u1, u2⟩ := upward_eq hg hc hd
    obtain ⟨w1, w2⟩ := downward_eq hg hc hd
    obtain ⟨v1, v2⟩ := hV c hc
    have lL := length_lowerBounds g c hl
    have lS := length_localSizes g c hl
    have hS := getD_localSizes g c hl d hd
    have hL := getD_lowerBounds g c hl d hd
    -- source and destination
    have hsrc : ∀ c : List ℕ, (cartShift (procsOf g) false d ((procsOf g).getD d 0 - 1) c).1 =
        if (procsOf g).getD d 0 - 1 ≤ c.getD d 0
          then some (c.set d (c.getD d 0 - ((procsOf g).getD d 0 - 1))) else none := fun _ => rfl
    have hdst : ∀ c : List ℕ, (cartShift (procsOf g) false d ((procsOf g).getD d 0 - 1) c).2 =
        if c.getD d 0 + ((procsOf g).getD d 0 - 1) < (procsOf g).getD d 0
          then some (c.set d (c.getD d 0 + ((procsOf g).getD d 0 - 1))) else none := fun _ => rfl
    have hhl : highestAndLowest g false d c =
        some (cartShift (procsOf g) false d ((procsOf g).getD d 0 - 1) c) := by
      unfold highestAndLowest
      simp only
      rw [if_neg]
      rintro ⟨h1, h2⟩
      rw [hdst] at h2
      apply h1
      rw [hL]
      apply b3
      by_contra hne
      rw [if_neg (by omega)] at h2
      exact h2 rfl
    -- the send is matched
    have hsend : ∀ r, (cartShift (procsOf g) false d ((procsOf g).getD d 0 - 1) c).2 = some r →
        (cartShift (procsOf g) false d ((procsOf g).getD d 0 - 1) r).1 = some c := by
      intro r hr
      rw [hdst] at hr
      by_cases h0 : c.getD d 0 = 0
      · rw [if_pos (by omega)] at hr
        have hk : c.getD d 0 + ((procsOf g).getD d 0 - 1) < (procsOf g).getD d 0 := by omega
        obtain ⟨m1, m2, -⟩ := moved hc hd hk
        rw [← Option.some.inj hr, hsrc, m2, if_pos (by omega)]
        congr 1
        exact set_set_self hdc (by omega)
      · rw [if_neg (by omega)] at hr
        exact absurd hr (by simp)
    unfold writeLowerToUpper
    rw [w2, u2, hhl]
    by_cases hlast : c.getD d 0 + 1 = (procsOf g).getD d 0
    · -- the last process in this dimension receives from the first one
      have hk : (0 : ℕ) < (procsOf g).getD d 0 := by omega
      obtain ⟨m1, m2, m3, m4⟩ := moved hc hd hk
      obtain ⟨hl', hb'⟩ := (validCoords_iff g _).1 m1
      obtain ⟨q1, q2⟩ := downward_eq hg m1 hd
      obtain ⟨p1, p2⟩ := hV _ m1
      have hsrc' : (cartShift (procsOf g) false d ((procsOf g).getD d 0 - 1) c).1 =
          some (c.set d 0) := by
        rw [hsrc, if_pos (by omega)]
        congr 2
        omega
      have hdst' : (cartShift (procsOf g) false d ((procsOf g).getD d 0 - 1) (c.set d 0)).2 =
          some c := by
        rw [hdst, m2, if_pos (by omega)]
        congr 1
        exact set_set_self hdc (by omega)
      obtain ⟨msg, a1, a2, a3⟩ := pack_subarray q1 (data (c.set d 0)) p1
      have hmsg : sendrecv (fun c => (cartShift (procsOf g) false d ((procsOf g).getD d 0 - 1) c).2)
          (fun c => (cartShift (procsOf g) false d ((procsOf g).getD d 0 - 1) c).1)
          (fun r => do pack (data r) (← downwardSubarray g r d)) c = some (some msg) := by
        refine sendrecv_some hsend hsrc' hdst' ?_
        rw [q2]
        exact a1
      rw [m3] at a2 a3
      obtain ⟨r, r1, r2, r3, r4⟩ := receive_subarray u1 (data c) msg v1 a2
      have hupN := b6 hlast
      refine ⟨r, ?_, r2, fun y hy => ?_⟩
      · simp only [Option.bind_eq_bind, Option.bind_some] at hmsg ⊢
        rw [hmsg]
        simp only [Option.bind_some]
        rw [if_neg]
        · exact r1
        rintro ⟨h1, p, hp1, hp2⟩
        rw [hsrc'] at h1
        have h00 : c.getD d 0 = 0 := by rwa [Option.some.inj h1] at m2
        have hlo := b3 h00
        obtain ⟨y1, hy1, e1⟩ := mem_subarrayPositions w1 hp1
        obtain ⟨y2, hy2, e2⟩ := mem_subarrayPositions u1 hp2
        have he := seq_inj (w1.lt hy1) (u1.lt hy2) (e1.symm.trans e2)
        have := congrArg (fun l => l.getD d 0) he
        rw [forall₂_lt_iff] at hy1 hy2
        have g1 := hy1.2 d (by rw [List.length_set, lS]; exact hd)
        have g2 := hy2.2 d (by rw [List.length_set, lS]; exact hd)
        rw [getD_set _ _ _ _ (by rw [lS]; exact hd), if_pos rfl] at g1 g2
        simp only at this
        rw [getD_add _ _ (by rw [List.length_map, hy1.1, List.length_set]),
          getD_add _ _ (by rw [List.length_set, List.length_map, hy2.1, List.length_set]),
          getD_set _ _ _ _ (by rw [List.length_map, lS]; exact hd), if_pos rfl,
          List.getD_eq_getElem?_getD, List.getElem?_map,
          List.getElem?_eq_getElem (by rw [lS]; exact hd)] at this
        simp only [Option.map_some, Option.getD_some] at this
        omega
      · have hyl : y.length = g.length := by rw [hy.length_eq, lS]
        have hlen : (lowerBounds g c).length = y.length := by rw [lL, hyl]
        have hyd := ((forall₂_lt_iff _ _).1 hy).2 d (by rw [lS]; exact hd)
        rw [getD_add _ _ hlen, hL]
        by_cases htop : y.getD d 0 = (localSizes g c).getD d 0 - 1
        · rw [if_pos (by omega)]
          -- the local point is in the upper layer
          have hy' : List.Forall₂ (· < ·) (y.set d 0) ((localSizes g c).set d 1) := by
            rw [forall₂_lt_iff] at hy ⊢
            refine ⟨by simp [hy.1], fun i hi => ?_⟩
            rw [List.length_set] at hi
            rw [getD_set _ _ _ _ (by rw [hyl]; exact hd), getD_set _ _ _ _ (by rw [lS]; exact hd)]
            split
            · omega
            · exact hy.2 i hi
          have ey : y = List.zipWith (· + ·) (((localSizes g c).map fun _ => 0).set d
              ((localSizes g c).getD d 0 - 1)) (y.set d 0) := by
            refine ext_getD (by simp [lS, hyl]) fun i hi => ?_
            rw [getD_add _ _ (by simp [lS, hyl]),
              getD_set _ _ _ _ (by rw [List.length_map, lS]; exact hd),
              getD_set _ _ _ _ (by rw [hyl]; exact hd)]
            split
            · rename_i he
              rw [he, htop]
              omega
            · rw [getD_zeros, Nat.zero_add]
          have h3 := r3 _ hy'
          rw [← ey] at h3
          have hy'' : List.Forall₂ (· < ·) (y.set d 0) (localSizes g (c.set d 0)) := by
            have := q1.lt (y := y.set d 0) (by rw [m3]; exact hy')
            have e0 : List.zipWith (· + ·) ((localSizes g (c.set d 0)).map fun _ => 0) (y.set d 0) =
                y.set d 0 := by
              have hll : ((localSizes g (c.set d 0)).map fun _ => 0).length = (y.set d 0).length := by
                simp [length_localSizes g _ hl', hyl]
              refine ext_getD (by simp [length_localSizes g _ hl', hyl]) fun i hi => ?_
              rw [getD_add _ _ hll, getD_zeros, Nat.zero_add]
            rwa [e0] at this
          have e0 : List.zipWith (· + ·) ((localSizes g (c.set d 0)).map fun _ => 0) (y.set d 0) =
              y.set d 0 := by
            have hll : ((localSizes g (c.set d 0)).map fun _ => 0).length = (y.set d 0).length := by
              simp [length_localSizes g _ hl', hyl]
            refine ext_getD (by simp [length_localSizes g _ hl', hyl]) fun i hi => ?_
            rw [getD_add _ _ hll, getD_zeros, Nat.zero_add]
          rw [h3, a3 _ hy', e0, p2 _ hy'']
          congr 2
          have lL' := length_lowerBounds g _ hl'
          refine ext_getD (by simp [lL, lL', hyl]) fun i hi => ?_
          have hi : i < g.length := by simpa [lL', hyl] using hi
          rw [getD_add _ _ (by simp [lL', hyl]), m4 i hi, getD_set _ _ _ _ (by rw [hyl]; exact hd),
            getD_set _ _ _ _ (by simp [lL, hyl, hd]), getD_add _ _ hlen]
          split
          · rw [(bounds_full hg d hd 0 hk).2.2.1 rfl]
          · rfl
        · rw [if_neg (by omega), r4 y hy]
          · exact v2 y hy
          intro z hz he
          apply htop
          have hzl := hz.length_eq
          rw [List.length_set, lS] at hzl
          rw [he, getD_add _ _ (by simp [lS, hzl]),
            getD_set _ _ _ _ (by rw [List.length_map, lS]; exact hd), if_pos rfl]
          have := ((forall₂_lt_iff _ _).1 hz).2 d (by rw [List.length_set, lS]; exact hd)
          rw [getD_set _ _ _ _ (by rw [lS]; exact hd), if_pos rfl] at this
          omega
    · -- all others keep their values
      have hsrc' : (cartShift (procsOf g) false d ((procsOf g).getD d 0 - 1) c).1 = none := by
        rw [hsrc, if_neg (by omega)]
      have hmsg : sendrecv (fun c => (cartShift (procsOf g) false d ((procsOf g).getD d 0 - 1) c).2)
          (fun c => (cartShift (procsOf g) false d ((procsOf g).getD d 0 - 1) c).1)
          (fun r => do pack (data r) (← downwardSubarray g r d)) c = some none := sendrecv_none hsend hsrc'
      refine ⟨data c, ?_, v1, fun y hy => ?_⟩
      · simp only [Option.bind_eq_bind, Option.bind_some] at hmsg ⊢
        rw [hmsg]
        rfl
      · have hyl : y.length = g.length := by rw [hy.length_eq, lS]
        have hlen : (lowerBounds g c).length = y.length := by rw [lL, hyl]
        have hyd := ((forall₂_lt_iff _ _).1 hy).2 d (by rw [lS]; exact hd)
        have := (b5 (by omega)).2
        rw [getD_add _ _ hlen, hL, if_neg (by omega)]
        exact v2 y hy
  have : ∀ c, ∃ buf, ValidCoords g c → writeLowerToUpper g false data d c = some buf ∧
      buf.length = (localSizes g c).prod ∧
      ∀ y, List.Forall₂ (· < ·) y (localSizes g c) → buf[sequentialIndex (localSizes g c) y]? =
        some (if (List.zipWith (· + ·) (lowerBounds g c) y).getD d 0 = (globalSizes g).getD d 0 - 1
          then V ((List.zipWith (· + ·) (lowerBounds g c) y).set d 0)
          else V (List.zipWith (· + ·) (lowerBounds g c) y)) := by
    intro c
    by_cases hc : ValidCoords g c
    · obtain ⟨buf, h⟩ := key c hc
      exact ⟨buf, fun _ => h⟩
    · exact ⟨[], fun h => absurd h hc⟩
  choose data' hdata' using this
  exact ⟨data', fun c hc => (hdata' c hc).1, fun c hc => (hdata' c hc).2⟩

/-- The message with the last layer of a process. -/
lemma upward_message {K : Type} {g : List Dim1} (hg : FullParts g) {data : List ℕ → List K}
    {V : List ℕ → K} (hV : Represents g data V) {d : ℕ} (hd : d < g.length) {c : List ℕ}
    (hc : ValidCoords g c) {k : ℕ} (hk : k < (procsOf g).getD d 0) :
    ∃ msg, (do pack (data (c.set d k)) (← upwardSubarray g (c.set d k) d)) = some msg ∧
      msg.length = ((localSizes g c).set d 1).prod ∧
      ∀ y, List.Forall₂ (· < ·) y ((localSizes g c).set d 1) →
        msg[sequentialIndex ((localSizes g c).set d 1) y]? =
          some (V ((List.zipWith (· + ·) (lowerBounds g c) y).set d (up1 g d k - 1))) := by
  obtain ⟨hl, hb⟩ := (validCoords_iff g c).1 hc
  obtain ⟨m1, m2, m3, m4⟩ := moved hc hd hk
  obtain ⟨hl', hb'⟩ := (validCoords_iff g _).1 m1
  obtain ⟨q1, q2⟩ := upward_eq hg m1 hd
  obtain ⟨p1, p2⟩ := hV _ m1
  obtain ⟨msg, a1, a2, a3⟩ := pack_subarray q1 (data (c.set d k)) p1
  rw [m3] at a2 a3
  refine ⟨msg, ?_, a2, fun y hy => ?_⟩
  · rw [q2]
    exact a1
  have lL := length_lowerBounds g c hl
  have lL' := length_lowerBounds g _ hl'
  have lS := length_localSizes g c hl
  have lS' := length_localSizes g _ hl'
  have hyl : y.length = g.length := by rw [hy.length_eq, List.length_set, lS]
  have hyd := ((forall₂_lt_iff _ _).1 hy).2 d (by rw [List.length_set, lS]; exact hd)
  rw [getD_set _ _ _ _ (by rw [lS]; exact hd), if_pos rfl] at hyd
  rw [a3 y hy, p2 _ (q1.lt (by rw [m3]; exact hy))]
  congr 2
  have l1 : (((localSizes g (c.set d k)).map fun _ => 0).set d
      ((localSizes g (c.set d k)).getD d 0 - 1)).length = y.length := by simp [lS', hyl]
  have l2 : (lowerBounds g (c.set d k)).length =
      (List.zipWith (· + ·) (((localSizes g (c.set d k)).map fun _ => 0).set d
        ((localSizes g (c.set d k)).getD d 0 - 1)) y).length := by simp [lL', lS', hyl]
  refine ext_getD (by simp [lL, lL', lS', hyl]) fun i hi => ?_
  replace hi : i < g.length := by simpa [lL', lS', hyl] using hi
  rw [getD_add _ _ l2, getD_add _ _ l1, m4 i hi,
    getD_set _ _ _ _ (by rw [List.length_map, lS']; exact hd),
    getD_set _ _ _ _ (by simp [lL, hyl, hd]), getD_add _ _ (by rw [lL, hyl])]
  split
  · rename_i he
    subst he
    have hS := getD_localSizes g _ hl' i hi
    rw [m2] at hS
    obtain ⟨b1, -⟩ := bounds_full hg i hi k hk
    omega
  · rw [getD_zeros, Nat.zero_add]

/-- C78: the ghost layer of a dimension with two boundary points or none (the communicator is not periodic
in that dimension): the processes at the lower end receive nothing, all others receive the layer of values
directly below their own ones. No assertion fails and no process waits forever. -/
theorem C78_ghost_layer {K : Type} (g : List Dim1) (hg : FullParts g) (d : ℕ) (hd : d < g.length)
    (data : List ℕ → List K) (V : List ℕ → K) (hV : Represents g data V) (b : ℕ) (hb1 : b ≠ 1)
    (c : List ℕ) (hc : ValidCoords g c) :
    ∃ extents buf, exchangeGhostLayerUpward g false b data d c = some (extents, buf) ∧
      buf.length = extents.prod ∧ extents.length = g.length ∧
      ((lowerBounds g c).getD d 0 = 0 → buf = [] ∧ ∀ e ∈ extents, e = 0) ∧
      (0 < (lowerBounds g c).getD d 0 → extents = (localSizes g c).set d 1 ∧
        ∀ y, List.Forall₂ (· < ·) y extents → buf[sequentialIndex extents y]? =
          some (V ((List.zipWith (· + ·) (lowerBounds g c) y).set d
            ((lowerBounds g c).getD d 0 - 1)))) := by
  obtain ⟨hl, hb⟩ := (validCoords_iff g c).1 hc
  have hdc : d < c.length := by rw [hl]; exact hd
  have hcd := hb d hd
  obtain ⟨b1, b2, b3, b4, b5, b6⟩ := bounds_full hg d hd _ hcd
  have lS := length_localSizes g c hl
  have hL := getD_lowerBounds g c hl d hd
  have hU := getD_upperBounds g c hl d hd
  have hsrc : ∀ c : List ℕ, (cartShift (procsOf g) false d 1 c).1 =
      if 1 ≤ c.getD d 0 then some (c.set d (c.getD d 0 - 1)) else none := fun _ => rfl
  have hdst : ∀ c : List ℕ, (cartShift (procsOf g) false d 1 c).2 =
      if c.getD d 0 + 1 < (procsOf g).getD d 0 then some (c.set d (c.getD d 0 + 1)) else none :=
    fun _ => rfl
  have hsend : ∀ r, (cartShift (procsOf g) false d 1 c).2 = some r →
      (cartShift (procsOf g) false d 1 r).1 = some c := by
    intro r hr
    rw [hdst] at hr
    split at hr
    · rename_i hk
      obtain ⟨m1, m2, -⟩ := moved hc hd hk
      rw [← Option.some.inj hr, hsrc, m2, if_pos (by omega)]
      congr 1
      exact set_set_self hdc (by omega)
    · exact absurd hr (by simp)
  unfold exchangeGhostLayerUpward
  rw [(upward_eq hg hc hd).2]
  simp only [Option.bind_eq_bind, Option.bind_some]
  rw [if_neg (fun h => hb1 h.1)]
  rw [if_neg (show ¬ (b = 2 ∧ (lowerBounds g c).getD d 0 = 0 ∧
      (cartShift (procsOf g) false d 1 c).1 ≠ none) from by
    rintro ⟨-, h1, h2⟩
    rw [hsrc] at h2
    rw [hL] at h1
    apply h2
    rw [if_neg]
    intro h
    have := b4 h
    omega)]
  rw [if_neg (show ¬ (b = 2 ∧ (upperBounds g c).getD d 0 = (globalSizes g).getD d 0 ∧
      (cartShift (procsOf g) false d 1 c).2 ≠ none) from by
    rintro ⟨-, h1, h2⟩
    rw [hdst] at h2
    rw [hU] at h1
    apply h2
    rw [if_neg]
    intro h
    have := (b5 h).2
    omega)]
  by_cases h0 : c.getD d 0 = 0
  · have hs : (cartShift (procsOf g) false d 1 c).1 = none := by rw [hsrc, if_neg (by omega)]
    rw [sendrecv_none hsend hs, if_pos hs]
    have hpos : localSizes g c ≠ [] := by
      intro h
      rw [h] at lS
      simp at lS
      omega
    refine ⟨_, _, rfl, ?_, by simp [lS], fun _ => ⟨rfl, by simp⟩, fun h => ?_⟩
    · obtain ⟨a, l, hal⟩ := List.exists_cons_of_ne_nil hpos
      simp [hal]
    · rw [hL, b3 h0] at h
      omega
  · have hs : (cartShift (procsOf g) false d 1 c).1 = some (c.set d (c.getD d 0 - 1)) := by
      rw [hsrc, if_pos (by omega)]
    have hk : c.getD d 0 - 1 < (procsOf g).getD d 0 := by omega
    obtain ⟨m1, m2, -⟩ := moved hc hd hk
    have hd' : (cartShift (procsOf g) false d 1 (c.set d (c.getD d 0 - 1))).2 = some c := by
      rw [hdst, m2, if_pos (by omega)]
      congr 1
      exact set_set_self hdc (by omega)
    obtain ⟨msg, a1, a2, a3⟩ := upward_message hg hV hd hc hk
    rw [sendrecv_some hsend hs hd' (by exact a1)]
    simp only [Option.bind_some]
    rw [if_neg (show ¬ (cartShift (procsOf g) false d 1 c).1 = none by rw [hs]; simp), if_pos a2]
    have hup := ((bounds_full hg d hd _ hk).2.2.2.2.1 (by omega)).1
    rw [show c.getD d 0 - 1 + 1 = c.getD d 0 by omega] at hup
    refine ⟨_, _, rfl, a2, by simp [lS], fun h => ?_, fun _ => ⟨rfl, fun y hy => ?_⟩⟩
    · have := b4 (by omega)
      omega
    · rw [a3 y hy, hL, hup]

/-- C78: the ghost layer of a dimension with one boundary point (the communicator is periodic in that
dimension): every process receives the layer of values directly below its own ones, where the last point of
the grid is below the first one. No assertion fails and no process waits forever. -/
theorem C78_ghost_layer_periodic {K : Type} (g : List Dim1) (hg : FullParts g) (d : ℕ)
    (hd : d < g.length) (data : List ℕ → List K) (V : List ℕ → K) (hV : Represents g data V)
    (c : List ℕ) (hc : ValidCoords g c) :
    ∃ buf, exchangeGhostLayerUpward g true 1 data d c = some ((localSizes g c).set d 1, buf) ∧
      buf.length = ((localSizes g c).set d 1).prod ∧
      ∀ y, List.Forall₂ (· < ·) y ((localSizes g c).set d 1) →
        buf[sequentialIndex ((localSizes g c).set d 1) y]? =
          some (V ((List.zipWith (· + ·) (lowerBounds g c) y).set d
            (((lowerBounds g c).getD d 0 + (globalSizes g).getD d 0 - 1) %
              (globalSizes g).getD d 0))) := by
  obtain ⟨hl, hb⟩ := (validCoords_iff g c).1 hc
  have hdc : d < c.length := by rw [hl]; exact hd
  have hcd := hb d hd
  obtain ⟨b1, b2, b3, b4, b5, b6⟩ := bounds_full hg d hd _ hcd
  have hL := getD_lowerBounds g c hl d hd
  generalize hP : (procsOf g).getD d 0 = P at hcd b5 b6
  have hprev : ∀ x < P, (x + (P - 1 % P)) % P = if x = 0 then P - 1 else x - 1 := by
    intro x hx
    have h1 : (x + (P - 1 % P)) % P = (x + (P - 1)) % P := by
      rcases Nat.eq_or_lt_of_le (show 1 ≤ P by omega) with h | h
      · subst h
        simp [Nat.mod_one]
      · rw [Nat.mod_eq_of_lt h]
    rw [h1]
    split
    · rename_i h0
      subst h0
      rw [Nat.zero_add, Nat.mod_eq_of_lt (by omega)]
    · rw [show x + (P - 1) = x - 1 + P by omega, Nat.add_mod_right, Nat.mod_eq_of_lt (by omega)]
  have hnext : ∀ x < P, (x + 1) % P = if x + 1 = P then 0 else x + 1 := by
    intro x hx
    split
    · rename_i h0
      rw [h0, Nat.mod_self]
    · rw [Nat.mod_eq_of_lt (by omega)]
  have hsrc : ∀ c : List ℕ, (cartShift (procsOf g) true d 1 c).1 =
      some (c.set d ((c.getD d 0 + (P - 1 % P)) % P)) := by
    intro c
    rw [← hP]
    rfl
  have hdst : ∀ c : List ℕ, (cartShift (procsOf g) true d 1 c).2 =
      some (c.set d ((c.getD d 0 + 1) % P)) := by
    intro c
    rw [← hP]
    rfl
  have hsend : ∀ r, (cartShift (procsOf g) true d 1 c).2 = some r →
      (cartShift (procsOf g) true d 1 r).1 = some c := by
    intro r hr
    rw [hdst, hnext _ hcd] at hr
    have hk : (if c.getD d 0 + 1 = P then 0 else c.getD d 0 + 1) < (procsOf g).getD d 0 := by
      rw [hP]
      split <;> omega
    obtain ⟨m1, m2, -⟩ := moved hc hd hk
    rw [← Option.some.inj hr, hsrc, m2, hprev _ (by rw [hP] at hk; exact hk)]
    congr 1
    refine set_set_self hdc ?_
    by_cases hlast : c.getD d 0 + 1 = P
    · rw [if_pos hlast, if_pos rfl]
      omega
    · rw [if_neg hlast, if_neg (by omega)]
      omega
  have hk : (c.getD d 0 + (P - 1 % P)) % P < (procsOf g).getD d 0 := by
    rw [hP]
    exact Nat.mod_lt _ (by omega)
  obtain ⟨m1, m2, -⟩ := moved hc hd hk
  have hd' : (cartShift (procsOf g) true d 1 (c.set d ((c.getD d 0 + (P - 1 % P)) % P))).2 =
      some c := by
    rw [hdst, m2, hprev _ hcd]
    congr 1
    refine set_set_self hdc ?_
    rw [hnext _ (by split <;> omega)]
    split_ifs <;> omega
  obtain ⟨msg, a1, a2, a3⟩ := upward_message hg hV hd hc hk
  unfold exchangeGhostLayerUpward
  rw [(upward_eq hg hc hd).2]
  simp only [Option.bind_eq_bind, Option.bind_some]
  rw [if_neg (show ¬ (True ∧ ((cartShift (procsOf g) true d 1 c).1 = none ∨
      (cartShift (procsOf g) true d 1 c).2 = none)) by rw [hsrc, hdst]; simp),
    if_neg (by omega), if_neg (by omega)]
  have hmsg : sendrecv (fun c => (cartShift (procsOf g) true d 1 c).2)
      (fun c => (cartShift (procsOf g) true d 1 c).1)
      (fun r => do pack (data r) (← upwardSubarray g r d)) c = some (some msg) :=
    sendrecv_some hsend (hsrc c) hd' a1
  simp only [Option.bind_eq_bind] at hmsg
  rw [hmsg]
  simp only [Option.bind_some]
  rw [if_neg (show ¬ (cartShift (procsOf g) true d 1 c).1 = none by rw [hsrc]; simp), if_pos a2]
  refine ⟨msg, rfl, a2, fun y hy => ?_⟩
  rw [a3 y hy, hL]
  congr 3
  have hk' := hk
  rw [hprev _ hcd] at hk' ⊢
  obtain ⟨n1, n2, n3, n4, n5, n6⟩ := bounds_full hg d hd _ hk'
  by_cases h0 : c.getD d 0 = 0
  · rw [if_pos h0] at n6 n1 n2 ⊢
    rw [n6 (by rw [hP]; omega), b3 h0, Nat.zero_add, Nat.mod_eq_of_lt (by omega)]
  · rw [if_neg h0] at n5 n1 n2 ⊢
    have h5 := (n5 (by rw [hP]; omega)).1
    rw [show c.getD d 0 - 1 + 1 = c.getD d 0 by omega] at h5
    have := b4 (by omega)
    rw [h5, show lo1 g d (c.getD d 0) + (globalSizes g).getD d 0 - 1 =
      lo1 g d (c.getD d 0) - 1 + (globalSizes g).getD d 0 by omega, Nat.add_mod_right,
      Nat.mod_eq_of_lt (by omega)]

/-! ### Examples -/

/-- A grid of 3 × 4 points on 2 × 2 processes and its values. -/
def exampleGrid : List Dim1 := [⟨[0, 1], 3⟩, ⟨[0, 2], 4⟩]

/-- C77, C78: the hypotheses are met; the buffers hold `10 * x + y`. -/
example : ∃ data : List ℕ → List ℕ, FullParts exampleGrid ∧
    Represents exampleGrid data (fun x => 10 * x.getD 0 0 + x.getD 1 0) ∧
    (allCoords exampleGrid).length = 4 ∧ 1 < exampleGrid.length ∧
    2 ≤ (globalSizes exampleGrid).getD 1 0 := by
  refine ⟨fun c => (List.range (localSizes exampleGrid c).prod).map fun k =>
    let y := List.zipWith (· + ·) (lowerBounds exampleGrid c)
      (getVectorIndex (localSizes exampleGrid c) k)
    10 * y.getD 0 0 + y.getD 1 0, by simp [FullParts, exampleGrid], fun c hc => ⟨by simp, fun y hy => ?_⟩,
    by decide, by decide, by decide⟩
  have h := sequentialIndex_lt _ _ hy
  rw [List.getElem?_map, List.getElem?_range h]
  simp only [Option.map_some]
  rw [getVectorIndex_sequentialIndex _ _ hy]

end Verif.GroupGrid
