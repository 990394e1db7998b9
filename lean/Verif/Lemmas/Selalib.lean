import Verif.Model.Selalib
import Verif.Lemmas.Kahan
import Mathlib.Data.List.Basic
import Mathlib.Data.List.ReduceOption
import Mathlib.Tactic.Linarith

/-!
# The Selalib example: lemmas
-/

namespace Verif.Selalib

/-! ### Templates -/

/-- A template: text and placeholders `$name`. -/
inductive Piece where
  | text (s : List Char)
  | hole (name : List Char)
  deriving DecidableEq

/-- The characters of the names of placeholders. -/
def isName (c : Char) : Bool := c.isAlphanum || c == '_'

/-- The template as it is in the file. -/
def render : List Piece → List Char
  | [] => []
  | .text s :: ps => s ++ render ps
  | .hole k :: ps => '$' :: (k ++ render ps)

/-- The template with values for the placeholders; those without a value stay. -/
def fill (value : List Char → Option (List Char)) : List Piece → List Char
  | [] => []
  | .text s :: ps => s ++ fill value ps
  | .hole k :: ps => (value k).getD ('$' :: k) ++ fill value ps

/-- The names of the placeholders. -/
def holes : List Piece → List (List Char)
  | [] => []
  | .text _ :: ps => holes ps
  | .hole k :: ps => k :: holes ps

/-- The text starts with a character that is not part of a name. -/
def endsName : List Piece → Bool
  | [] => true
  | .text (c :: _) :: _ => !isName c
  | _ => false

/-- `$` only begins placeholders, and after a placeholder the name ends. -/
def okTemplate : List Piece → Bool
  | [] => true
  | .text s :: ps => s.all (fun c => c != '$') && okTemplate ps
  | .hole k :: ps => k.all isName && endsName ps && okTemplate ps

/-- The first placeholder `k` becomes text. -/
def setHole (k v : List Char) : List Piece → List Piece
  | [] => []
  | .text s :: ps => .text s :: setHole k v ps
  | .hole k' :: ps => if k = k' then .text v :: ps else .hole k' :: setHole k v ps

theorem replace_text {k v s : List Char} (hs : ∀ c ∈ s, c ≠ '$') (r : List Char) :
    replaceFirstOccurrence ('$' :: k) v (s ++ r) = s ++ replaceFirstOccurrence ('$' :: k) v r := by
  induction s with
  | nil => rfl
  | cons c s ih =>
    have hc : ('$' :: k).isPrefixOf (c :: (s ++ r)) = false := by
      have := hs c (by simp)
      simp [List.isPrefixOf, this.symm]
    rw [List.cons_append, replaceFirstOccurrence, hc]
    simp only [Bool.false_eq_true, if_false]
    rw [ih fun c hc => hs c (by simp [hc]), List.cons_append]

theorem name_ne_dollar {c : Char} (h : isName c = true) : c ≠ '$' := by
  rintro rfl
  exact absurd h (by decide)

theorem prefix_name {k k' : List Char} (hk : ∀ c ∈ k, isName c = true) {ps : List Piece}
    (he : endsName ps = true) (h : k <+: k' ++ render ps) : k <+: k' := by
  by_cases hl : k.length ≤ k'.length
  · exact List.prefix_of_prefix_length_le h (List.prefix_append _ _) hl
  · exfalso
    have h1 : k' <+: k := List.prefix_of_prefix_length_le (List.prefix_append k' (render ps)) h (by omega)
    obtain ⟨t, rfl⟩ := h1
    have h2 : t <+: render ps := (List.prefix_append_right_inj k').1 h
    cases ps with
    | nil =>
      have := List.prefix_nil.1 h2
      subst this
      simp at hl
    | cons q ps =>
      cases q with
      | hole _ => simp [endsName] at he
      | text s =>
        cases s with
        | nil => simp [endsName] at he
        | cons c s =>
          cases t with
          | nil => simp at hl
          | cons d t =>
            have h3 : d = c := by
              have := h2
              rw [render, List.cons_append, List.cons_prefix_cons] at this
              exact this.1
            subst h3
            have h4 := hk d (by simp)
            simp [endsName, h4] at he

theorem replace_render {k v : List Char} (hk : ∀ c ∈ k, isName c = true) {ps : List Piece}
    (hok : okTemplate ps = true) (hpre : ∀ k' ∈ holes ps, k <+: k' → k = k') :
    replaceFirstOccurrence ('$' :: k) v (render ps) = render (setHole k v ps) := by
  induction ps with
  | nil => rfl
  | cons q ps ih =>
    cases q with
    | text s =>
      simp only [okTemplate, Bool.and_eq_true, List.all_eq_true, bne_iff_ne] at hok
      rw [render, replace_text hok.1, ih hok.2 hpre, setHole, render]
    | hole k' =>
      simp only [okTemplate, Bool.and_eq_true, List.all_eq_true] at hok
      obtain ⟨⟨h1, h2⟩, h3⟩ := hok
      rw [render, setHole]
      by_cases e : k = k'
      · subst e
        rw [if_pos rfl, render, replaceFirstOccurrence, if_pos]
        · simp
        · simp [List.isPrefixOf_iff_prefix]
      · rw [if_neg e, render, replaceFirstOccurrence, if_neg,
          replace_text fun c hc => name_ne_dollar (h1 c hc),
          ih h3 fun k'' hk'' => hpre k'' (by simp [holes, hk''])]
        rw [List.isPrefixOf_iff_prefix, List.cons_prefix_cons]
        rintro ⟨-, h4⟩
        exact e (hpre k' (by simp [holes]) (prefix_name hk h2 h4))

theorem endsName_setHole {k v : List Char} {ps : List Piece} (h : endsName ps = true) :
    endsName (setHole k v ps) = true := by
  cases ps with
  | nil => rfl
  | cons q ps =>
    cases q with
    | hole _ => simp [endsName] at h
    | text s =>
      cases s with
      | nil => simp [endsName] at h
      | cons c s => simpa [setHole, endsName] using h

theorem ok_setHole {k v : List Char} (hv : ∀ c ∈ v, c ≠ '$') {ps : List Piece} (hok : okTemplate ps = true) :
    okTemplate (setHole k v ps) = true := by
  induction ps with
  | nil => rfl
  | cons q ps ih =>
    cases q with
    | text s =>
      simp only [okTemplate, Bool.and_eq_true] at hok
      simp only [setHole, okTemplate, Bool.and_eq_true]
      exact ⟨hok.1, ih hok.2⟩
    | hole k' =>
      simp only [okTemplate, Bool.and_eq_true] at hok
      rw [setHole]
      by_cases e : k = k'
      · rw [if_pos e]
        simp only [okTemplate, Bool.and_eq_true, List.all_eq_true, bne_iff_ne]
        exact ⟨hv, hok.2⟩
      · rw [if_neg e]
        simp only [okTemplate, Bool.and_eq_true]
        exact ⟨⟨hok.1.1, endsName_setHole hok.1.2⟩, ih hok.2⟩

theorem holes_setHole (k v : List Char) (ps : List Piece) : holes (setHole k v ps) = (holes ps).erase k := by
  induction ps with
  | nil => rfl
  | cons q ps ih =>
    cases q with
    | text s => simpa [setHole, holes] using ih
    | hole k' =>
      rw [setHole]
      by_cases e : k = k'
      · subst e
        rw [if_pos rfl]
        simp [holes]
      · rw [if_neg e, holes, holes, ih, List.erase_cons_tail]
        simpa using fun h => e h.symm

theorem fill_congr {f g : List Char → Option (List Char)} {ps : List Piece} (h : ∀ k ∈ holes ps, f k = g k) :
    fill f ps = fill g ps := by
  induction ps with
  | nil => rfl
  | cons q ps ih =>
    cases q with
    | text s => rw [fill, fill, ih h]
    | hole k => rw [fill, fill, h k (by simp [holes]), ih fun k' hk' => h k' (by simp [holes, hk'])]

theorem fill_setHole {k v : List Char} {f : List Char → Option (List Char)} {ps : List Piece}
    (hnd : (holes ps).Nodup) :
    fill f (setHole k v ps) = fill (fun k' => if k' = k then some v else f k') ps := by
  induction ps with
  | nil => rfl
  | cons q ps ih =>
    cases q with
    | text s => rw [setHole, fill, fill, ih hnd]
    | hole k' =>
      rw [setHole]
      rw [holes, List.nodup_cons] at hnd
      by_cases e : k = k'
      · subst e
        rw [if_pos rfl, fill, fill, if_pos rfl, Option.getD_some]
        congr 1
        refine fill_congr fun k'' hk'' => ?_
        rw [if_neg]
        rintro rfl
        exact hnd.1 hk''
      · rw [if_neg e, fill, fill, if_neg (fun h => e h.symm), ih hnd.2]

theorem fill_none (ps : List Piece) : fill (fun _ => none) ps = render ps := by
  induction ps with
  | nil => rfl
  | cons q ps ih =>
    cases q with
    | text s => rw [fill, render, ih]
    | hole k => rw [fill, render, ih, Option.getD_none, List.cons_append]

/-- Replacing names one after the other. -/
def replaceAll (subs : List (List Char × List Char)) (s : List Char) : List Char :=
  subs.foldl (fun s kv => replaceFirstOccurrence ('$' :: kv.1) kv.2 s) s

theorem replaceAll_render (subs : List (List Char × List Char))
    (hk : ∀ kv ∈ subs, ∀ c ∈ kv.1, isName c = true) (hv : ∀ kv ∈ subs, ∀ c ∈ kv.2, c ≠ '$') (ps : List Piece)
    (hok : okTemplate ps = true) (hnd : (holes ps).Nodup)
    (hpre : ∀ kv ∈ subs, ∀ k' ∈ holes ps, kv.1 <+: k' → kv.1 = k') :
    replaceAll subs (render ps) = fill (fun k => subs.lookup k) ps := by
  induction subs generalizing ps with
  | nil => exact (fill_none ps).symm
  | cons kv subs ih =>
    unfold replaceAll
    rw [List.foldl_cons, replace_render (hk kv (by simp)) hok (hpre kv (by simp))]
    have := ih (fun kv h => hk kv (by simp [h])) (fun kv h => hv kv (by simp [h])) (setHole kv.1 kv.2 ps)
      (ok_setHole (hv kv (by simp)) hok) (by rw [holes_setHole]; exact hnd.erase _)
      (fun kv' h k' hk' => hpre kv' (by simp [h]) k' (by
        rw [holes_setHole] at hk'
        exact List.mem_of_mem_erase hk'))
    unfold replaceAll at this
    rw [this, fill_setHole hnd]
    refine fill_congr fun k _ => ?_
    obtain ⟨a, b⟩ := kv
    rw [List.lookup_cons]
    by_cases e : k = a
    · subst e
      simp
    · rw [if_neg e]
      have : (k == a) = false := by simpa using e
      rw [this]

/-- The names and values of the dimensions from `d` on. -/
def dimSubs : (d : ℕ) → List (ℕ × ℕ) → List (List Char × List Char)
  | _, [] => []
  | d, (r, p) :: rest => ("nx".toList ++ decimal (d + 1), decimal r) ::
      ("p".toList ++ decimal (d + 1), decimal p) :: dimSubs (d + 1) rest

theorem replaceDims_eq (d : ℕ) (rest : List (ℕ × ℕ)) (s : List Char) :
    replaceDims d rest s = replaceAll (dimSubs d rest) s := by
  induction rest generalizing d s with
  | nil => rfl
  | cons x rest ih =>
    rw [replaceDims, ih]
    rfl

/-- All names and values. -/
def subsOf (S : Settings) (resolution : List ℕ) : List (List Char × List Char) :=
  [("nsteps".toList, decimal S.nsteps), ("dt".toList, fixedText S.dt),
    ("n_diagnostics".toList, decimal S.nDiagnostics), ("name_diagnostics".toList, S.nameDiagnostics)] ++
    dimSubs 0 (resolution.zip S.p)

theorem adapt_eq (S : Settings) (template : List Char) (resolution : List ℕ)
    (h : resolution.length = S.p.length) :
    adaptParameterFile S template resolution = .ok (replaceAll (subsOf S resolution) template) := by
  unfold adaptParameterFile
  rw [if_pos h]
  simp only
  rw [replaceDims_eq]
  unfold subsOf replaceAll
  rw [List.foldl_append]
  rfl

theorem decimal_digit {n : ℕ} {c : Char} (h : c ∈ decimal n) : c.isDigit = true :=
  Nat.isDigit_of_mem_toDigits (by decide) (by decide) h

theorem digit_ne_dollar {c : Char} (h : c.isDigit = true) : c ≠ '$' := by
  rintro rfl
  exact absurd h (by decide)

theorem digit_name {c : Char} (h : c.isDigit = true) : isName c = true := by
  unfold isName Char.isAlphanum
  simp [h]

theorem sixDigits_digit {n : ℕ} {c : Char} (h : c ∈ sixDigits n) : c.isDigit = true := by
  unfold sixDigits at h
  obtain ⟨d, -, rfl⟩ := List.mem_map.1 h
  rw [Nat.isDigit_digitChar]
  simpa using Nat.mod_lt _ (by decide)

theorem fixedText_char {x : ℚ} {c : Char} (h : c ∈ fixedText x) : c.isDigit = true ∨ c = '-' ∨ c = '.' := by
  unfold fixedText at h
  simp only [List.mem_append, List.mem_cons] at h
  rcases h with (h | h) | h | h
  · split_ifs at h
    · simp at h
      exact Or.inr (Or.inl h)
    · simp at h
  · exact Or.inl (decimal_digit h)
  · exact Or.inr (Or.inr h)
  · exact Or.inl (sixDigits_digit h)

theorem mem_dimSubs {d : ℕ} {rest : List (ℕ × ℕ)} {kv : List Char × List Char} (h : kv ∈ dimSubs d rest) :
    (∃ e, e < d + rest.length ∧ (kv.1 = "nx".toList ++ decimal (e + 1) ∨ kv.1 = "p".toList ++ decimal (e + 1))) ∧
      ∃ n, kv.2 = decimal n := by
  induction rest generalizing d with
  | nil => simp [dimSubs] at h
  | cons x rest ih =>
    rw [dimSubs, List.mem_cons, List.mem_cons] at h
    rcases h with rfl | rfl | h
    · exact ⟨⟨d, by simp, Or.inl rfl⟩, _, rfl⟩
    · exact ⟨⟨d, by simp, Or.inr rfl⟩, _, rfl⟩
    · obtain ⟨⟨e, h1, h2⟩, h3⟩ := ih h
      exact ⟨⟨e, by simp; omega, h2⟩, h3⟩

/-- The names that are replaced for `n` dimensions. -/
def names (n : ℕ) : List (List Char) :=
  ["nsteps".toList, "dt".toList, "n_diagnostics".toList, "name_diagnostics".toList] ++
    (List.range n).flatMap fun d => ["nx".toList ++ decimal (d + 1), "p".toList ++ decimal (d + 1)]

theorem mem_names {S : Settings} {resolution : List ℕ} {kv : List Char × List Char}
    (h : kv ∈ subsOf S resolution) : kv.1 ∈ names resolution.length := by
  unfold subsOf at h
  unfold names
  rw [List.mem_append] at h ⊢
  rcases h with h | h
  · left
    simp only [List.mem_cons, List.not_mem_nil, or_false] at h
    rcases h with rfl | rfl | rfl | rfl <;> simp
  · right
    obtain ⟨⟨e, h1, h2⟩, -⟩ := mem_dimSubs h
    rw [List.length_zip] at h1
    rw [List.mem_flatMap]
    refine ⟨e, List.mem_range.2 (by omega), ?_⟩
    simpa using h2

theorem names_chars {n : ℕ} {k : List Char} (h : k ∈ names n) : ∀ c ∈ k, isName c = true := by
  unfold names at h
  rw [List.mem_append] at h
  rcases h with h | h
  · simp only [List.mem_cons, List.not_mem_nil, or_false] at h
    rcases h with rfl | rfl | rfl | rfl <;> decide
  · obtain ⟨d, -, h⟩ := List.mem_flatMap.1 h
    simp only [List.mem_cons, List.not_mem_nil, or_false] at h
    intro c hc
    rcases h with rfl | rfl <;> rw [List.mem_append] at hc <;> rcases hc with hc | hc
    · revert c
      decide
    · exact digit_name (decimal_digit hc)
    · revert c
      decide
    · exact digit_name (decimal_digit hc)

theorem subs_values {S : Settings} (hname : '$' ∉ S.nameDiagnostics) {resolution : List ℕ}
    {kv : List Char × List Char} (h : kv ∈ subsOf S resolution) : ∀ c ∈ kv.2, c ≠ '$' := by
  unfold subsOf at h
  rw [List.mem_append] at h
  intro c hc
  rcases h with h | h
  · simp only [List.mem_cons, List.not_mem_nil, or_false] at h
    rcases h with rfl | rfl | rfl | rfl
    · exact digit_ne_dollar (decimal_digit hc)
    · rcases fixedText_char hc with h | rfl | rfl
      · exact digit_ne_dollar h
      · decide
      · decide
    · exact digit_ne_dollar (decimal_digit hc)
    · rintro rfl
      exact hname hc
  · obtain ⟨-, n, h2⟩ := mem_dimSubs h
    rw [h2] at hc
    exact digit_ne_dollar (decimal_digit hc)

theorem adapt_fill (S : Settings) (hname : '$' ∉ S.nameDiagnostics) (ps : List Piece) (hok : okTemplate ps = true)
    (hnd : (holes ps).Nodup) (resolution : List ℕ) (hlen : resolution.length = S.p.length)
    (hpre : ∀ k ∈ names resolution.length, ∀ k' ∈ holes ps, k <+: k' → k = k') :
    adaptParameterFile S (render ps) resolution =
      .ok (fill (fun k => (subsOf S resolution).lookup k) ps) := by
  rw [adapt_eq S _ _ hlen, replaceAll_render _ (fun kv h => names_chars (mem_names h))
    (fun kv h => subs_values hname h) ps hok hnd (fun kv h => hpre kv.1 (mem_names h))]

/-! ### Folders -/

theorem createLoop_ok (S : Settings) (template : List Char) (dims : ℕ) (text : List ℕ → List Char)
    (grids : List (List ℕ × ℕ))
    (h : ∀ g ∈ grids, g.1.length = dims ∧
      adaptParameterFile S template (g.1.map fun l => 2 ^ l) = .ok (text g.1))
    (hnd : (grids.map Prod.snd).Nodup) (F : Folders) :
    ∃ F', createLoop S template dims grids F = .ok F' ∧ (∀ g ∈ grids, F' g.2 = some (text g.1)) ∧
      ∀ i, i ∉ grids.map Prod.snd → F' i = F i := by
  induction grids generalizing F with
  | nil => exact ⟨F, rfl, by simp, fun _ _ => rfl⟩
  | cons g grids ih =>
    obtain ⟨level, number⟩ := g
    obtain ⟨h1, h2⟩ := h (level, number) (by simp)
    rw [List.map_cons, List.nodup_cons] at hnd
    obtain ⟨F', e, a1, a2⟩ := ih (fun g hg => h g (by simp [hg])) hnd.2
      (Function.update F number (some (text level)))
    refine ⟨F', ?_, ?_, ?_⟩
    · rw [createLoop]
      unfold resolutionOf
      simp only at h1 h2
      rw [if_pos (by omega)]
      simp only [Outcome.bind]
      rw [← h1, List.take_length, h2]
      simp only
      rw [h1]
      exact e
    · intro g hg
      rcases List.mem_cons.1 hg with rfl | hg
      · rw [a2 _ hnd.1]
        simp
      · exact a1 g hg
    · intro i hi
      rw [List.map_cons, List.mem_cons, not_or] at hi
      rw [a2 i hi.2, Function.update_of_ne hi.1]

theorem restart_ok (hasCheckpoint : ℕ → Bool) (i count : ℕ) (F : Folders)
    (h : ∀ j, i ≤ j → j < i + count → hasCheckpoint j = true) :
    ∃ F', setCheckpointRestart hasCheckpoint i count F = .ok F' ∧
      ∀ j, F' j = if i ≤ j ∧ j < i + count then
        some (replaceFirstOccurrence "restart = .false.".toList restartInfo ((F j).getD [])) else F j := by
  induction count generalizing i F with
  | zero => exact ⟨F, rfl, fun j => by rw [if_neg (by omega)]⟩
  | succ count ih =>
    obtain ⟨F', e, a⟩ := ih (i + 1) (restartFolder F i) fun j h1 h2 => h j (by omega) (by omega)
    refine ⟨F', ?_, ?_⟩
    · rw [setCheckpointRestart, h i (Nat.le_refl i) (by omega), if_pos rfl]
      exact e
    · intro j
      rw [a j]
      unfold restartFolder
      by_cases e1 : j = i
      · subst e1
        rw [if_neg (by omega), if_pos (by omega), Function.update_self]
      · rw [Function.update_of_ne e1]
        by_cases e2 : i ≤ j ∧ j < i + (count + 1)
        · rw [if_pos e2, if_pos (by omega)]
        · rw [if_neg e2, if_neg (by omega)]

theorem restart_error (hasCheckpoint : ℕ → Bool) (i count : ℕ) (F : Folders) (j : ℕ) (h1 : i ≤ j)
    (h2 : j < i + count) (h : hasCheckpoint j = false) :
    setCheckpointRestart hasCheckpoint i count F = .error := by
  induction count generalizing i F with
  | zero => omega
  | succ count ih =>
    rw [setCheckpointRestart]
    by_cases hc : hasCheckpoint i = true
    · rw [if_pos hc]
      refine ih (i + 1) _ ?_ (by omega)
      rcases Nat.eq_or_lt_of_le h1 with rfl | h3
      · rw [hc] at h
        cases h
      · exact h3
    · rw [if_neg hc]

theorem restart_same (hasCheckpoint : ℕ → Bool) (i count : ℕ) (F F' : Folders)
    (h : setCheckpointRestart hasCheckpoint i count F = .ok F') (j : ℕ) (hj : i + count ≤ j) : F' j = F j := by
  induction count generalizing i F with
  | zero =>
    rw [setCheckpointRestart] at h
    cases h
    rfl
  | succ count ih =>
    rw [setCheckpointRestart] at h
    split_ifs at h
    rw [ih (i + 1) _ h (by omega)]
    unfold restartFolder
    rw [Function.update_of_ne (by omega)]

/-- A text that occurs first at some place is replaced there. -/
theorem replace_at {key v : List Char} (hkey : key ≠ []) (pre post : List Char)
    (h : ∀ j < pre.length, ¬ key <+: (pre ++ key ++ post).drop j) :
    replaceFirstOccurrence key v (pre ++ key ++ post) = pre ++ v ++ post := by
  induction pre with
  | nil =>
    cases key with
    | nil => simp at hkey
    | cons c key =>
      rw [List.nil_append, List.cons_append, replaceFirstOccurrence, if_pos]
      · simp
      · simp [List.isPrefixOf_iff_prefix]
  | cons c pre ih =>
    rw [List.cons_append, List.cons_append, replaceFirstOccurrence, if_neg, ih]
    · simp
    · intro j hj
      have := h (j + 1) (by simpa using hj)
      simpa using this
    · have := h 0 (by simp)
      simpa [List.isPrefixOf_iff_prefix] using this

/-! ### Diagnostics -/

section
variable {K : Type}

theorem addNumber_new [Zero K] (A : Adder K) (m : ℕ) (x : K) (t : Table K) (hm : 1 ≤ m) :
    addNumber A m t.length x t = t ++ [[(x, 0)]] := by
  unfold addNumber
  rw [if_pos (by omega), List.modify_eq_set_getElem?]
  unfold addToColumn
  rw [List.getElem?_append_right (by omega)]
  simp [show 0 < m by omega]

theorem addNumber_old [Zero K] (A : Adder K) (m : ℕ) (x : K) (pre : Table K) (col : List (K × K))
    (suf : Table K) :
    addNumber A m pre.length x (pre ++ col :: suf) = pre ++ addToColumn A m x col :: suf := by
  unfold addNumber
  rw [if_neg (by simp), List.modify_eq_set_getElem?, List.getElem?_append_right (by omega)]
  simp

theorem addLine_new [Zero K] (A : Adder K) (mul : K → K → K) (c : K) (m : ℕ) (hm : 1 ≤ m) (l : Line K)
    (t : Table K) :
    addLine A mul c m t.length l t = t ++ l.reduceOption.map fun v => [(mul v c, 0)] := by
  induction l generalizing t with
  | nil => simp [addLine]
  | cons o l ih =>
    cases o with
    | none => rw [addLine, ih, List.reduceOption_cons_of_none]
    | some v =>
      rw [addLine, addNumber_new A m _ t hm]
      have := ih (t ++ [[(mul v c, 0)]])
      rw [List.length_append, List.length_singleton] at this
      rw [this, List.reduceOption_cons_of_some]
      simp

theorem addLine_old [Zero K] (A : Adder K) (mul : K → K → K) (c : K) (m : ℕ) (l : Line K)
    (pre suf : Table K) (h : l.reduceOption.length = suf.length) :
    addLine A mul c m pre.length l (pre ++ suf) =
      pre ++ List.zipWith (fun col v => addToColumn A m (mul v c) col) suf l.reduceOption := by
  induction l generalizing pre suf with
  | nil =>
    have : suf = [] := List.length_eq_zero_iff.1 h.symm
    subst this
    simp [addLine]
  | cons o l ih =>
    cases o with
    | none =>
      rw [List.reduceOption_cons_of_none] at h ⊢
      rw [addLine, ih pre suf h]
    | some v =>
      rw [List.reduceOption_cons_of_some] at h ⊢
      cases suf with
      | nil => simp at h
      | cons col suf =>
        rw [addLine, addNumber_old]
        have := ih (pre ++ [addToColumn A m (mul v c) col]) suf (by simpa using h)
        rw [List.length_append, List.length_singleton, List.append_assoc, List.singleton_append] at this
        rw [this]
        simp

/-- A table with `R` lines and `C` columns. -/
def tableOf (R C : ℕ) (g : ℕ → ℕ → K × K) : Table K :=
  (List.range C).map fun k => (List.range R).map fun j => g j k

theorem zipWith_range {α β γ : Type} (f : α → β → γ) (C : ℕ) (a : ℕ → α) (b : ℕ → β) :
    List.zipWith f ((List.range C).map a) ((List.range C).map b) = (List.range C).map fun k => f (a k) (b k) := by
  rw [List.zipWith_map, List.zipWith_self]

theorem tableOf_congr {R C : ℕ} {g g' : ℕ → ℕ → K × K} (h : ∀ j < R, ∀ k < C, g j k = g' j k) :
    tableOf R C g = tableOf R C g' := by
  unfold tableOf
  refine List.map_congr_left fun k hk => List.map_congr_left fun j hj => ?_
  exact h j (List.mem_range.1 hj) k (List.mem_range.1 hk)

theorem addLine_push [Zero K] (A : Adder K) (mul : K → K → K) (c : K) (j C : ℕ) (v : ℕ → ℕ → K) (l : Line K)
    (hl : l.reduceOption = (List.range C).map (v j)) :
    addLine A mul c (j + 1) 0 l (tableOf j C fun j k => (mul (v j k) c, 0)) =
      tableOf (j + 1) C fun j k => (mul (v j k) c, 0) := by
  have := addLine_old A mul c (j + 1) l [] (tableOf j C fun j k => (mul (v j k) c, 0)) (by
    rw [hl]
    simp [tableOf])
  rw [List.length_nil, List.nil_append] at this
  rw [this, hl]
  unfold tableOf
  rw [zipWith_range, List.nil_append]
  refine List.map_congr_left fun k _ => ?_
  unfold addToColumn
  rw [if_pos (by simp), List.range_succ, List.map_append]
  rfl

theorem addLine_sum [Zero K] (A : Adder K) (mul : K → K → K) (c : K) (j R C : ℕ) (hj : j < R) (g : ℕ → ℕ → K × K)
    (v : ℕ → ℕ → K) (l : Line K) (hl : l.reduceOption = (List.range C).map (v j)) :
    addLine A mul c (j + 1) 0 l (tableOf R C g) =
      tableOf R C fun j' k => if j' = j then kahanStep A (g j' k) (mul (v j' k) c) else g j' k := by
  have := addLine_old A mul c (j + 1) l [] (tableOf R C g) (by
    rw [hl]
    simp [tableOf])
  rw [List.length_nil, List.nil_append] at this
  rw [this, hl]
  unfold tableOf
  rw [zipWith_range, List.nil_append]
  refine List.map_congr_left fun k _ => ?_
  unfold addToColumn
  rw [if_neg (by simp; omega), Nat.add_sub_cancel]
  refine List.ext_getElem (by simp) fun i h1 h2 => ?_
  rw [List.getElem_modify]
  simp only [List.getElem_map, List.getElem_range]
  by_cases e : j = i
  · subst e
    simp
  · rw [if_neg e, if_neg fun h => e h.symm]

theorem addLines_push [Zero K] (A : Adder K) (mul : K → K → K) (c : K) (C : ℕ) (v : ℕ → ℕ → K) (ls : List (Line K))
    (j : ℕ) (h : ls.map List.reduceOption = (List.range' j ls.length).map fun j => (List.range C).map (v j)) :
    addLines A mul c j ls (tableOf j C fun j k => (mul (v j k) c, 0)) =
      tableOf (j + ls.length) C fun j k => (mul (v j k) c, 0) := by
  induction ls generalizing j with
  | nil => rfl
  | cons l ls ih =>
    rw [List.length_cons, List.range'_succ, List.map_cons, List.map_cons, List.cons.injEq] at h
    rw [addLines, addLine_push A mul c j C v l h.1, ih (j + 1) h.2, List.length_cons]
    congr 1
    omega

theorem addLines_sum [Zero K] (A : Adder K) (mul : K → K → K) (c : K) (R C : ℕ) (g : ℕ → ℕ → K × K)
    (v : ℕ → ℕ → K) (ls : List (Line K)) (j : ℕ) (hj : j + ls.length = R)
    (h : ls.map List.reduceOption = (List.range' j ls.length).map fun j => (List.range C).map (v j)) :
    addLines A mul c j ls (tableOf R C fun j' k =>
        if j' < j then kahanStep A (g j' k) (mul (v j' k) c) else g j' k) =
      tableOf R C fun j' k => kahanStep A (g j' k) (mul (v j' k) c) := by
  induction ls generalizing j with
  | nil =>
    rw [addLines]
    refine tableOf_congr fun j' h1 k _ => ?_
    rw [if_pos (by simp at hj; omega)]
  | cons l ls ih =>
    rw [List.length_cons] at hj
    rw [List.length_cons, List.range'_succ, List.map_cons, List.map_cons, List.cons.injEq] at h
    rw [addLines, addLine_sum A mul c j R C (by omega) _ v l h.1, ← ih (j + 1) (by omega) h.2]
    congr 1
    refine tableOf_congr fun j' _ k _ => ?_
    by_cases e : j' = j
    · subst e
      rw [if_pos rfl, if_neg (by omega), if_pos (by omega)]
    · rw [if_neg e]
      by_cases e2 : j' < j
      · rw [if_pos e2, if_pos (by omega)]
      · rw [if_neg e2, if_neg (by omega)]

/-- The numbers in a file: `R` lines with `C` numbers each. -/
def HoldsNumbers (f : List (Line K)) (R C : ℕ) (v : ℕ → ℕ → K) : Prop :=
  f.map List.reduceOption = (List.range R).map fun j => (List.range C).map (v j)

theorem addFile_first [Zero K] (A : Adder K) (mul : K → K → K) (c : K) (R C : ℕ) (hR : 1 ≤ R)
    (v : ℕ → ℕ → K) (f : List (Line K)) (h : HoldsNumbers f R C v) :
    addLines A mul c 0 f [] = tableOf R C fun j k => (mul (v j k) c, 0) := by
  unfold HoldsNumbers at h
  have hlen : f.length = R := by
    have := congrArg List.length h
    simpa using this
  cases f with
  | nil => simp at hlen; omega
  | cons l ls =>
    have hr : List.range (l :: ls).length = List.range' 0 (l :: ls).length := List.range_eq_range'
    rw [← hlen, hr, List.length_cons, List.range'_succ, List.map_cons, List.map_cons,
      List.cons.injEq] at h
    have h1 := addLine_new A mul c 1 (Nat.le_refl 1) l []
    rw [List.length_nil, List.nil_append] at h1
    rw [addLines, h1, h.1]
    have h2 := addLines_push A mul c C v ls 1 h.2
    have h3 : (List.map (fun v => [(mul v c, (0 : K))]) (List.map (v 0) (List.range C))) =
        tableOf 1 C fun j k => (mul (v j k) c, 0) := by
      unfold tableOf
      rw [List.map_map]
      rfl
    rw [h3, h2, ← hlen, List.length_cons, Nat.add_comm]

theorem addFile_next [Zero K] (A : Adder K) (mul : K → K → K) (c : K) (R C : ℕ) (g : ℕ → ℕ → K × K)
    (v : ℕ → ℕ → K) (f : List (Line K)) (h : HoldsNumbers f R C v) :
    addLines A mul c 0 f (tableOf R C g) = tableOf R C fun j k => kahanStep A (g j k) (mul (v j k) c) := by
  unfold HoldsNumbers at h
  have hlen : f.length = R := by
    have := congrArg List.length h
    simpa using this
  rw [← addLines_sum A mul c R C g v f 0 (by omega) (by
    have hr : List.range R = List.range' 0 R := List.range_eq_range'
    rw [h, hlen, hr])]
  congr 1

theorem addFiles_next [Zero K] (A : Adder K) (mul : K → K → K) (files : ℕ → Option (List (Line K)))
    (R C : ℕ) (v : ℕ → ℕ → ℕ → K) (cs : List K) (i : ℕ)
    (h : ∀ i' < cs.length, ∃ f, files (i + i') = some f ∧ HoldsNumbers f R C (v (i + i')))
    (g : ℕ → ℕ → K × K) :
    addFiles A mul files i cs (tableOf R C g) = .ok (tableOf R C fun j k =>
      ((List.range cs.length).map fun i' => mul (v (i + i') j k) (cs.getD i' 0)).foldl (kahanStep A) (g j k)) := by
  induction cs generalizing i g with
  | nil => rfl
  | cons c cs ih =>
    obtain ⟨f, h1, h2⟩ := h 0 (by simp)
    rw [Nat.add_zero] at h1 h2
    rw [addFiles, h1]
    simp only
    rw [addFile_next A mul c R C g (v i) f h2, ih (i + 1) (fun i' hi' => by
      have := h (i' + 1) (by simpa using hi')
      rwa [show i + (i' + 1) = i + 1 + i' by omega] at this)]
    congr 1
    refine tableOf_congr fun j _ k _ => ?_
    rw [List.length_cons, List.range_succ_eq_map, List.map_cons, List.foldl_cons, List.map_map]
    congr 1
    refine List.map_congr_left fun i' _ => ?_
    simp only [Function.comp]
    rw [show i + 1 + i' = i + i'.succ by omega]
    rfl

theorem addFiles_all [Zero K] (A : Adder K) (mul : K → K → K) (files : ℕ → Option (List (Line K)))
    (R C : ℕ) (hR : 1 ≤ R) (v : ℕ → ℕ → ℕ → K) (c : K) (cs : List K)
    (h : ∀ i < cs.length + 1, ∃ f, files i = some f ∧ HoldsNumbers f R C (v i)) :
    addFiles A mul files 0 (c :: cs) [] = .ok (tableOf R C fun j k =>
      ((List.range cs.length).map fun i => mul (v (i + 1) j k) (cs.getD i 0)).foldl (kahanStep A)
        (mul (v 0 j k) c, 0)) := by
  obtain ⟨f, h1, h2⟩ := h 0 (by omega)
  rw [addFiles, h1]
  simp only
  rw [addFile_first A mul c R C hR (v 0) f h2, addFiles_next A mul files R C v cs 1 (fun i hi => by
    have := h (i + 1) (by omega)
    rwa [Nat.add_comm i 1] at this)]
  congr 1
  refine tableOf_congr fun j _ k _ => ?_
  congr 1
  refine List.map_congr_left fun i _ => ?_
  rw [Nat.add_comm]

theorem mapM_range_some {α : Type} (f : ℕ → Option α) (g : ℕ → α) (l : List ℕ) (h : ∀ j ∈ l, f j = some (g j)) :
    l.mapM f = some (l.map g) := by
  induction l with
  | nil => rfl
  | cons j l ih =>
    rw [List.mapM_cons, h j (by simp), ih fun j hj => h j (by simp [hj])]
    rfl

theorem mapM_some_map {α β : Type} (f : α → Option β) (g : ℕ → α) (r : ℕ → β) (l : List ℕ)
    (h : ∀ k ∈ l, f (g k) = some (r k)) : (l.map g).mapM f = some (l.map r) := by
  induction l with
  | nil => rfl
  | cons j l ih =>
    rw [List.map_cons, List.mapM_cons, h j (by simp), ih fun j hj => h j (by simp [hj])]
    rfl

theorem combine_eq [Zero K] (A : Adder K) (mul : K → K → K) (files : ℕ → Option (List (Line K)))
    (R C : ℕ) (hR : 1 ≤ R) (hC : 1 ≤ C) (v : ℕ → ℕ → ℕ → K) (c : K) (cs : List K)
    (h : ∀ i < cs.length + 1, ∃ f, files i = some f ∧ HoldsNumbers f R C (v i)) :
    combineDiagnostics A mul files (c :: cs) = .ok ((List.range R).map fun j => (List.range C).map fun k =>
      (((List.range cs.length).map fun i => mul (v (i + 1) j k) (cs.getD i 0)).foldl (kahanStep A)
        (mul (v 0 j k) c, 0)).1) := by
  unfold combineDiagnostics
  rw [addFiles_all A mul files R C hR v c cs h]
  simp only [Outcome.bind]
  set g : ℕ → ℕ → K × K := fun j k =>
    ((List.range cs.length).map fun i => mul (v (i + 1) j k) (cs.getD i 0)).foldl (kahanStep A)
      (mul (v 0 j k) c, 0) with hg
  have hcol : ∃ rest, tableOf R C g = ((List.range R).map fun j => g j 0) :: rest := by
    obtain ⟨C', rfl⟩ : ∃ C', C = C' + 1 := ⟨C - 1, by omega⟩
    unfold tableOf
    rw [List.range_succ_eq_map, List.map_cons]
    exact ⟨_, rfl⟩
  obtain ⟨rest, hrest⟩ := hcol
  have hrows : (List.range R).mapM (outputLine (tableOf R C g)) =
      some ((List.range R).map fun j => (List.range C).map fun k => (g j k).1) := by
    refine mapM_range_some _ _ _ fun j hj => ?_
    unfold outputLine tableOf
    refine mapM_some_map _ _ _ _ fun k _ => ?_
    rw [List.getElem?_map, List.getElem?_range (List.mem_range.1 hj)]
    rfl
  rw [hrest] at hrows ⊢
  simp only [List.length_map, List.length_range]
  rw [hrows]

end

section
variable {K : Type} [Field K] [LinearOrder K] [IsStrictOrderedRing K]

theorem kahan_from {u : K} (u0 : 0 ≤ u) (u1 : 16 * u ≤ 1) {A : Adder K} (hA : Rounds u A) (x : K) (xs : List K)
    (hn : 8 * ((xs.length + 1 : ℕ) * u) ≤ 1) :
    KahanInv u (x + xs.sum) (|x| + (xs.map fun x => |x|).sum) (xs.length + 1) (xs.foldl (kahanStep A) (x, 0)) := by
  induction xs using List.reverseRecOn with
  | nil =>
    have h1 : 0 ≤ u * |x| := mul_nonneg u0 (abs_nonneg x)
    have h2 : 0 ≤ u * (u * |x|) := mul_nonneg u0 h1
    refine ⟨by simp, by simpa using h1, ?_⟩
    simp only [List.sum_nil, List.foldl_nil, List.map_nil, List.length_nil, add_zero, sub_zero, sub_self,
      abs_zero, Nat.zero_add, Nat.cast_one, mul_one]
    linarith
  | append_singleton xs y ih =>
    rw [List.length_append, List.length_singleton] at hn
    push_cast at hn
    have := kahan_inv u0 u1 hA (by push_cast; linarith) (ih (by push_cast; linarith)) y
    rw [List.foldl_append, List.foldl_cons, List.foldl_nil, List.sum_append, List.sum_singleton,
      List.map_append, List.sum_append, List.map_singleton, List.sum_singleton, List.length_append,
      List.length_singleton, ← add_assoc, ← add_assoc]
    exact this

theorem sum_nonneg' (xs : List K) : 0 ≤ (xs.map fun x => |x|).sum := by
  apply List.sum_nonneg
  intro z hz
  obtain ⟨p, _, rfl⟩ := List.mem_map.1 hz
  exact abs_nonneg _

/-- The error of the summation that starts with the first product. -/
theorem kahan_from_error {u : K} (u0 : 0 ≤ u) (u1 : 16 * u ≤ 1) {A : Adder K} (hA : Rounds u A)
    (mul : K → K → K) (hmul : ∀ a b, |mul a b - a * b| ≤ u * |a * b|) (p : K × K) (ps : List (K × K))
    (hn : 8 * ((ps.length + 1 : ℕ) * u) ≤ 1) :
    |((ps.map fun p => mul p.1 p.2).foldl (kahanStep A) (mul p.1 p.2, 0)).1 -
        ((p :: ps).map fun p => p.1 * p.2).sum| ≤
      (8 * u + 17 * (ps.length + 1 : ℕ) * u ^ 2) * ((p :: ps).map fun p => |p.1 * p.2|).sum := by
  obtain ⟨-, h1, h2⟩ := kahan_from u0 u1 hA (mul p.1 p.2) (ps.map fun p => mul p.1 p.2)
    (by rwa [List.length_map])
  rw [List.length_map] at h2
  have hs : mul p.1 p.2 + (ps.map fun p => mul p.1 p.2).sum = ((p :: ps).map fun p => mul p.1 p.2).sum := by
    simp
  have hX : |mul p.1 p.2| + ((ps.map fun p => mul p.1 p.2).map fun x => |x|).sum =
      (((p :: ps).map fun p => mul p.1 p.2).map fun x => |x|).sum := by
    simp
  rw [hs, hX] at h2
  rw [hX] at h1
  set qs := p :: ps with hqs
  have a2 : |(qs.map fun p => mul p.1 p.2).sum - (qs.map fun p => p.1 * p.2).sum| ≤
      u * (qs.map fun p => |p.1 * p.2|).sum := by
    clear h1 h2 hn hs hX hqs
    induction qs with
    | nil => simp
    | cons p ps ih =>
      simp only [List.map_cons, List.sum_cons]
      have := hmul p.1 p.2
      have h3 := abs_add_le (mul p.1 p.2 - p.1 * p.2)
        ((ps.map fun p => mul p.1 p.2).sum - (ps.map fun p => p.1 * p.2).sum)
      rw [show mul p.1 p.2 + (ps.map fun p => mul p.1 p.2).sum -
        (p.1 * p.2 + (ps.map fun p => p.1 * p.2).sum) = mul p.1 p.2 - p.1 * p.2 +
        ((ps.map fun p => mul p.1 p.2).sum - (ps.map fun p => p.1 * p.2).sum) by ring]
      linarith [mul_add u |p.1 * p.2| (ps.map fun p => |p.1 * p.2|).sum]
  have a3 : ((qs.map fun p => mul p.1 p.2).map fun x => |x|).sum ≤
      (1 + u) * (qs.map fun p => |p.1 * p.2|).sum := by
    clear h1 h2 hn hs hX hqs a2
    induction qs with
    | nil => simp
    | cons p ps ih =>
      simp only [List.map_cons, List.sum_cons]
      have := hmul p.1 p.2
      have h3 := abs_add_le (mul p.1 p.2 - p.1 * p.2) (p.1 * p.2)
      rw [sub_add_cancel] at h3
      have h4 : (1 + u) * (|p.1 * p.2| + (ps.map fun p => |p.1 * p.2|).sum) =
        |p.1 * p.2| + u * |p.1 * p.2| + (1 + u) * (ps.map fun p => |p.1 * p.2|).sum := by ring
      rw [h4]
      linarith
  have hP : 0 ≤ (qs.map fun p => |p.1 * p.2|).sum := by
    apply List.sum_nonneg
    intro z hz
    obtain ⟨p, _, rfl⟩ := List.mem_map.1 hz
    exact abs_nonneg _
  have hY : 0 ≤ ((qs.map fun p => mul p.1 p.2).map fun x => |x|).sum := sum_nonneg' _
  generalize ((qs.map fun p => mul p.1 p.2).map fun x => |x|).sum = X at *
  generalize (qs.map fun p => |p.1 * p.2|).sum = P at *
  generalize (qs.map fun p => mul p.1 p.2).sum = M at *
  generalize (qs.map fun p => p.1 * p.2).sum = T at *
  generalize (List.foldl (kahanStep A) (mul p.1 p.2, 0) (ps.map fun p => mul p.1 p.2)) = s at *
  generalize hN : ((ps.length + 1 : ℕ) : K) = N at *
  have hN0 : (1 : K) ≤ N := by rw [← hN]; exact_mod_cast Nat.le_add_left 1 _
  have b1 := abs_add_le (s.1 - s.2 - M) s.2
  rw [show s.1 - s.2 - M + s.2 = s.1 - M by ring] at b1
  have b2 := abs_add_le (s.1 - M) (M - T)
  rw [show s.1 - M + (M - T) = s.1 - T by ring] at b2
  have huP : 0 ≤ u * P := mul_nonneg u0 hP
  have huuP : 0 ≤ u * (u * P) := mul_nonneg u0 huP
  have c1 : u * X ≤ u * P + u * (u * P) := by
    have := mul_le_mul_of_nonneg_left a3 u0
    linarith [show u * ((1 + u) * P) = u * P + u * (u * P) by ring]
  have c2 : u * (u * X) ≤ u * (u * P) + u * (u * (u * P)) := by
    have := mul_le_mul_of_nonneg_left c1 u0
    linarith [show u * (u * P + u * (u * P)) = u * (u * P) + u * (u * (u * P)) by ring]
  have c3 : N * (u * (u * X)) ≤ N * (u * (u * P)) + N * (u * (u * (u * P))) := by
    have := mul_le_mul_of_nonneg_left c2 (by linarith : (0 : K) ≤ N)
    linarith [mul_add N (u * (u * P)) (u * (u * (u * P)))]
  have c4 : 8 * (N * (u * (u * (u * P)))) ≤ u * (u * P) := by
    have := mul_le_mul_of_nonneg_right hn huuP
    linarith [show 8 * (N * u) * (u * (u * P)) = 8 * (N * (u * (u * (u * P)))) by ring]
  have c5 : u * (u * P) ≤ N * (u * (u * P)) := by
    have := mul_le_mul_of_nonneg_right hN0 huuP
    linarith
  have c6 : 16 * (u * (u * P)) ≤ u * P := by
    have := mul_le_mul_of_nonneg_right u1 huP
    linarith [show 16 * u * (u * P) = 16 * (u * (u * P)) by ring]
  have e1 : (8 * u + 17 * N * u ^ 2) * P = 8 * (u * P) + 17 * (N * (u * (u * P))) := by ring
  have e2 : 16 * N * (u * (u * X)) = 16 * (N * (u * (u * X))) := by ring
  rw [e1]
  rw [e2] at h2
  linarith

end

end Verif.Selalib
