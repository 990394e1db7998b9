import Verif.Model.Broadcast
import Verif.Props.SmallParts

/-!
# Property C125: all processes get what the root has
-/

namespace Verif.Broadcast

theorem toInt_small (n : ℕ) (h : n < 2 ^ 31) : toInt n = n := by
  have h1 : n % 2 ^ 32 = n := Nat.mod_eq_of_lt (by omega)
  rw [toInt, h1, if_pos h]

theorem ok_bind {β γ : Type} (a : β) (f : β → Outcome γ) : (Outcome.ok a).bind f = f a := rfl

theorem onAll_ok {β γ : Type} (f : β → Outcome γ) (g : β → γ) (l : List β) (h : ∀ x ∈ l, f x = .ok (g x)) :
    onAll f l = .ok (l.map g) := by
  induction l with
  | nil => rfl
  | cons x l ih =>
    rw [onAll, h x List.mem_cons_self]
    simp only [Outcome.bind]
    rw [ih fun y hy => h y (List.mem_cons_of_mem _ hy)]
    rfl

/-- the sizes of all buffers after `resize` -/
def resized {α : Type} (fill : α) (n : ℕ) (v : List α) : List α := v.take n ++ List.replicate (n - v.length) fill

theorem length_resized {α : Type} (fill : α) (n : ℕ) (v : List α) : (resized fill n v).length = n := by
  rw [resized, List.length_append, List.length_take, List.length_replicate]
  omega

theorem resized_self {α : Type} (fill : α) (v : List α) : resized fill v.length v = v := by
  simp [resized]

/-- all processes resize and get the first values of the root -/
theorem broadcast_prefix {α : Type} (fill : α) (root n : ℕ) (vs : List (List α)) (v : List α)
    (hv : vs[root]? = some v) (hn : n ≤ v.length) :
    ((onAll (fun w => resize fill w n) vs).bind fun vs => bcast n root vs) =
      .ok (List.replicate vs.length (v.take n)) := by
  rw [onAll_ok _ (resized fill n) vs (fun w _ => by
    rw [resize, if_neg (by omega), Int.toNat_natCast, resized])]
  simp only [Outcome.bind]
  have h1 : (vs.map (resized fill n))[root]? = some (v.take n) := by
    rw [List.getElem?_map, hv, Option.map_some, resized, Nat.sub_eq_zero_of_le hn, List.replicate_zero,
      List.append_nil]
  rw [bcast, h1]
  simp only [List.map_map, Outcome.ok.injEq]
  rw [List.eq_replicate_iff]
  refine ⟨by rw [List.length_map], ?_⟩
  intro b hb
  obtain ⟨w, -, rfl⟩ := List.mem_map.1 hb
  simp only [Function.comp]
  rw [List.drop_of_length_le (by rw [length_resized]), List.append_nil, List.take_take, Nat.min_self]

/-- C125: after `broadcastContainer` all processes have the container of the root, whatever they had before. -/
theorem C125_container {α : Type} (fill : α) (root : ℕ) (vs : List (List α)) (v : List α)
    (hv : vs[root]? = some v) (hs : v.length < 2 ^ 31) :
    broadcastContainer fill root vs = .ok (List.replicate vs.length v) := by
  rw [broadcastContainer, hv]
  simp only
  rw [toInt_small _ hs, Int.toNat_natCast]
  have := broadcast_prefix fill root v.length vs v hv le_rfl
  rw [List.take_length] at this
  exact this

example : broadcastContainer 0 1 [[7], [1, 2], [3, 4, 5]] = .ok [[1, 2], [1, 2], [1, 2]] :=
  C125_container 0 1 [[7], [1, 2], [3, 4, 5]] [1, 2] rfl (by decide)

/-- C125: after `broadcastClass` all processes have the object of the root, if archives can be read again. -/
theorem C125_class {T : Type} (save : T → List Char) (load : List Char → Option T) (root : ℕ) (ts : List T) (t : T)
    (ht : ts[root]? = some t) (hl : load (save t) = some t) (hs : (save t).length < 2 ^ 31) :
    broadcastClass save load root ts = .ok (List.replicate ts.length t) := by
  have hr : root < ts.length := (List.getElem?_eq_some_iff.1 ht).1
  rw [broadcastClass, ht]
  simp only
  rw [C125_container (Char.ofNat 0) root _ (save t) (by
    rw [List.getElem?_map, List.getElem?_range hr]; simp) hs]
  simp only [Outcome.bind, List.length_map, List.length_range]
  rw [onAll_ok _ (fun _ => t)]
  · congr 1
    rw [List.eq_replicate_iff]
    refine ⟨by simp, ?_⟩
    intro b hb
    obtain ⟨_, -, rfl⟩ := List.mem_map.1 hb
    rfl
  · rintro ⟨r, s⟩ hx
    have h2 := (List.mem_replicate.1 (List.of_mem_zip hx).2).2
    subst h2
    simp only
    split_ifs
    · rfl
    · rw [hl]

example : broadcastClass (fun n : ℕ => List.replicate n 'x') (fun s => some s.length) 1 [4, 2, 9] = .ok [2, 2, 2] :=
  C125_class _ _ 1 [4, 2, 9] 2 rfl rfl (by decide)

/-- C125: all processes get the contents of the file that rank zero reads. -/
theorem C125_file (s : List Char) (n : ℕ) (hn : 0 < n) (hs : s.length < 2 ^ 31) :
    getFileContents (some s) n = .ok (List.replicate n s) := by
  rw [getFileContents, C125_container _ 0 _ s (by
    rw [List.getElem?_map, List.getElem?_range hn]; simp) hs]
  simp

example : getFileContents (some ['[', 'c', 't', ']']) 3 = .ok (List.replicate 3 ['[', 'c', 't', ']']) :=
  C125_file _ 3 (by decide) (by decide)

/-- C125 is violated: a file that can not be opened is like an empty one. -/
theorem C125_missing_violated (n : ℕ) : getFileContents none n = getFileContents (some []) n := rfl

/-- C125 is violated: a container with 2^31 elements or more makes all processes throw, ... -/
theorem C125_large_violated {α : Type} (fill : α) (root : ℕ) (vs : List (List α)) (v : List α)
    (hv : vs[root]? = some v) (h1 : 2 ^ 31 ≤ v.length) (h2 : v.length < 2 ^ 32) :
    broadcastContainer fill root vs = .error := by
  have hneg : toInt v.length < 0 := by
    rw [toInt, Nat.mod_eq_of_lt h2, if_neg (by omega)]
    omega
  rw [broadcastContainer, hv]
  simp only
  cases vs with
  | nil => simp at hv
  | cons w vs =>
    rw [onAll, resize, if_pos hneg]
    rfl

example : ∃ v : List Bool, 2 ^ 31 ≤ v.length ∧ v.length < 2 ^ 32 :=
  ⟨List.replicate (2 ^ 31) true, by rw [List.length_replicate]; decide⟩

/-- ... and of one with 2^32 elements or more (up to 3 * 2^31) only the beginning is left, also on the root. -/
theorem C125_huge_violated {α : Type} (fill : α) (root k : ℕ) (vs : List (List α)) (v : List α)
    (hv : vs[root]? = some v) (h1 : v.length = 2 ^ 32 + k) (h2 : k < 2 ^ 31) :
    broadcastContainer fill root vs = .ok (List.replicate vs.length (v.take k)) := by
  have hk : toInt v.length = k := by
    have : toInt v.length = toInt k := by
      rw [toInt, toInt, h1, Nat.add_mod_left]
    rw [this, toInt_small k h2]
  rw [broadcastContainer, hv]
  simp only
  rw [hk, Int.toNat_natCast]
  exact broadcast_prefix fill root k vs v hv (by omega)

example : ∃ v : List Bool, v.length = 2 ^ 32 + 5 := ⟨List.replicate (2 ^ 32 + 5) true, List.length_replicate⟩

theorem serialize_ok {R : Type} (coords : List (List R)) (d : ℕ) (hne : coords ≠ [])
    (hdim : ∀ c ∈ coords, c.length = d) :
    ∃ s, serializeCoords coords = .ok s ∧ s.length = coords.length * d := by
  obtain ⟨c, cs, rfl⟩ := List.exists_cons_of_ne_nil hne
  refine ⟨_, rfl, ?_⟩
  have key : ∀ (l : List (List R)) (acc : List R), (∀ c ∈ l, c.length = d) →
      (l.foldl (fun acc c => acc ++ c) acc).length = acc.length + l.length * d := by
    intro l
    induction l with
    | nil => intro acc _; simp
    | cons c l ih =>
      intro acc h
      rw [List.foldl_cons, ih _ fun c' hc' => h c' (by simp [hc']), List.length_append, h c (by simp),
        List.length_cons]
      ring
  have := key (c :: cs) [] hdim
  simpa using this

/-- C125: all processes get the coordinates that rank zero reads. -/
theorem C125_coordinates {R : Type} (fill : R) (coords : List (List R)) (d n : ℕ) (hn : 0 < n) (hne : coords ≠ [])
    (hdim : ∀ c ∈ coords, c.length = d) (hpos : 1 ≤ d) (hmax : d ≤ 255) (hs : coords.length * d < 2 ^ 31) :
    getCoordinates fill coords n = .ok (List.replicate n coords) := by
  obtain ⟨s, h1, h2⟩ := serialize_ok coords d hne hdim
  have hl : coords.length < 2 ^ 31 := lt_of_le_of_lt (Nat.le_mul_of_pos_right _ hpos) hs
  have hl0 : 0 < coords.length := List.length_pos_iff.2 hne
  have hd := C55_roundtrip coords d hne hdim hpos hmax
  rw [h1] at hd
  have hd : deserializeCoords s d = .ok coords := hd
  have hp : prepareCoordinates coords = .ok (((coords.length : ℤ), (d : ℤ)), s) := by
    obtain ⟨c, cs, rfl⟩ := List.exists_cons_of_ne_nil hne
    rw [prepareCoordinates]
    rw [hdim c List.mem_cons_self, toInt_small _ hl, toInt_small d (by omega), if_pos ⟨by omega, by omega⟩, h1,
      ok_bind, if_pos]
    have h3 : (((c :: cs).length * d : ℕ) : ℤ) < 2147483648 := by omega
    have h4 : (s.length : ℤ) = (((c :: cs).length * d : ℕ) : ℤ) := by rw [h2]
    rw [Nat.cast_mul] at h3 h4
    exact ⟨h3, h4⟩
  rw [getCoordinates, hp, ok_bind]
  have hsz : (coords.length : ℤ) * (d : ℤ) = ((s.length : ℕ) : ℤ) := by rw [h2, Nat.cast_mul]
  have hb := broadcast_prefix fill 0 s.length ((List.range n).map fun r => if r = 0 then s else []) s
    (by rw [List.getElem?_map, List.getElem?_range hn]; simp) le_rfl
  rw [List.take_length, List.length_map, List.length_range] at hb
  simp only [hsz, Int.toNat_natCast]
  rw [onAll_ok _ (resized fill s.length) _ (fun w _ => by
    rw [resize, if_neg (by omega), Int.toNat_natCast, resized])] at hb ⊢
  rw [ok_bind] at hb ⊢
  rw [hb, ok_bind, onAll_ok _ (fun _ => coords) _ (fun v hv => by rw [(List.mem_replicate.1 hv).2, hd])]
  simp

example : getCoordinates 0 [[1, 2, 3], [4, 5, 6]] 3 = .ok (List.replicate 3 [[1, 2, 3], [4, 5, 6]]) :=
  C125_coordinates 0 _ 3 3 (by decide) (by decide) (by decide) (by decide) (by decide) (by decide)

/-- C125 is violated: the number of values overflows if there are 2^31 or more. -/
theorem C125_overflow_violated {R : Type} (fill : R) (coords : List (List R)) (d n : ℕ) (hne : coords ≠ [])
    (hdim : ∀ c ∈ coords, c.length = d) (hd : d < 2 ^ 31) (hl : coords.length < 2 ^ 31)
    (hs : 2 ^ 31 ≤ coords.length * d) : getCoordinates fill coords n = .stuck := by
  obtain ⟨s, h1, h2⟩ := serialize_ok coords d hne hdim
  have hp : prepareCoordinates coords = .stuck := by
    obtain ⟨c, cs, rfl⟩ := List.exists_cons_of_ne_nil hne
    rw [prepareCoordinates]
    rw [hdim c List.mem_cons_self, toInt_small _ hl, toInt_small d hd, h1, ok_bind]
    have h3 : ¬ (((c :: cs).length : ℤ) * (d : ℤ) < 2147483648) := by
      rw [← Nat.cast_mul]
      omega
    have h4 : ¬ (((c :: cs).length : ℤ) * (d : ℤ) < 2147483648 ∧
        (s.length : ℤ) = ((c :: cs).length : ℤ) * (d : ℤ)) := fun h => h3 h.1
    rw [if_neg h4]
    split_ifs <;> rfl
  rw [getCoordinates, hp]
  rfl

example : ∃ coords : List (List Bool), coords ≠ [] ∧ (∀ c ∈ coords, c.length = 8) ∧ coords.length < 2 ^ 31 ∧
    2 ^ 31 ≤ coords.length * 8 := by
  refine ⟨List.replicate (2 ^ 28) (List.replicate 8 true), ?_, ?_, ?_, ?_⟩
  · rw [Ne, List.replicate_eq_nil_iff]
    decide
  · intro c hc
    rw [(List.mem_replicate.1 hc).2]
    rfl
  · rw [List.length_replicate]
    decide
  · rw [List.length_replicate]
    decide

end Verif.Broadcast
