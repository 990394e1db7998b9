import Verif.Model.ErrorTable
import Mathlib.Algebra.BigOperators.Group.List.Basic
import Mathlib.Tactic.Ring
import Mathlib.Tactic.NormNum

/-!
# C129: The table of errors has the errors and the numbers of points of the runs

Every run of the advection example that is finished gives one row, with its basis, dimension and levels,
the errors in the last line of its output, and the number of points of all its component grids.
-/

namespace Verif.ErrorTable

private theorem ok_bind {α β : Type} (a : α) (f : α → Outcome β) : (Outcome.ok a).bind f = f a := rfl

private theorem splitAt_free {p : Char → Bool} : ∀ {w : Text}, (∀ c ∈ w, p c = false) → splitAt p w = [w]
  | [], _ => rfl
  | c :: w, h => by
    unfold splitAt
    rw [if_neg (by simp [h c (by simp)]), splitAt_free (fun x hx => h x (by simp [hx]))]

private theorem splitAt_cons {p : Char → Bool} {c : Char} {s : Text} (hc : p c = true) :
    ∀ {w : Text}, (∀ x ∈ w, p x = false) → splitAt p (w ++ c :: s) = w :: splitAt p s
  | [], _ => by rw [List.nil_append, splitAt, if_pos hc]
  | a :: w, h => by
    rw [List.cons_append, splitAt, if_neg (by simp [h a (by simp)]),
      splitAt_cons hc (fun x hx => h x (by simp [hx]))]

private theorem isDigit_number {n : ℕ} {c : Char} (h : c ∈ Nat.toDigits 10 n) : c.isDigit = true :=
  Nat.isDigit_of_mem_toDigits (by decide) (by decide) h

private theorem number_ne_nil (n : ℕ) : Nat.toDigits 10 n ≠ [] := by
  have := Nat.length_toDigits_pos (b := 10) (n := n)
  intro h
  rw [h] at this
  simp at this

private theorem toInt_number (n : ℕ) : toInt (Nat.toDigits 10 n) = some n := by
  unfold toInt
  rw [if_pos ⟨number_ne_nil n, List.all_eq_true.mpr fun c hc => isDigit_number hc⟩]
  exact congrArg some (Nat.ofDigitChars_toDigits (b := 10) (n := n) (by omega) (by omega))

/-! ### Numbers of points -/

private theorem words_level : ∀ l : List ℕ,
    (splitAt (fun c => !isWordChar c) ((l.flatMap fun n => Nat.toDigits 10 n ++ [' ']) ++ [']'])).filter
      (fun w => !w.isEmpty) = l.map (Nat.toDigits 10)
  | [] => by decide
  | n :: l => by
    rw [List.flatMap_cons, List.append_assoc, List.append_assoc, List.singleton_append,
      splitAt_cons (by decide) (fun x hx => by simp [isWordChar, Char.isAlphanum, isDigit_number hx]),
      List.filter_cons_of_pos (by simp [number_ne_nil n]), words_level l, List.map_cons]

private theorem words_levelText (l : List ℕ) :
    (splitAt (fun c => !isWordChar c) (levelText l)).filter (fun w => !w.isEmpty)
      = l.map (Nat.toDigits 10) := by
  have h : splitAt (fun c => !isWordChar c) (levelText l)
      = [] :: splitAt (fun c => !isWordChar c)
        ((l.flatMap fun n => Nat.toDigits 10 n ++ [' ']) ++ [']']) := by
    unfold levelText
    rw [List.cons_append, splitAt, if_pos (by decide)]
  rw [h, List.filter_cons_of_neg (by simp), words_level]

private theorem mapM_toInt : ∀ l : List ℕ, (l.map (Nat.toDigits 10)).mapM toInt = some l
  | [] => rfl
  | n :: l => by
    rw [List.map_cons, List.mapM_cons, toInt_number, mapM_toInt l]
    rfl

private theorem prod_pow : ∀ l : List ℕ, (l.map fun n => 2 ^ n).prod = 2 ^ l.sum
  | [] => rfl
  | n :: l => by rw [List.map_cons, List.prod_cons, prod_pow l, List.sum_cons, pow_add]

private theorem levelPoints_level {l : List ℕ} (hl : 2 ≤ l.length) :
    levelPoints (l.map (Nat.toDigits 10)) = .ok (l.map fun n => 2 ^ n).prod := by
  unfold levelPoints
  rw [if_neg (by rw [List.length_map]; omega), mapM_toInt, prod_pow]

/-- A piece of the output of a run: the level vector of a component grid, or another line. -/
inductive Piece where
  | level (l : List ℕ)
  | other (line : Text)

/-- The line of the output. -/
def Piece.text : Piece → Text
  | .level l => levelText l
  | .other line => line

/-- The number of points of a periodic grid: `2 ^ l` in every dimension. -/
def Piece.points : Piece → ℕ
  | .level l => (l.map fun n => 2 ^ n).prod
  | .other _ => 0

/-- Grids have at least two dimensions, and other lines do not begin with a bracket. -/
def Piece.Fine : Piece → Prop
  | .level l => 2 ≤ l.length
  | .other line => line.head? ≠ some '['

private theorem countDof_pieces : ∀ (ps : List Piece) (dof : ℕ), (∀ p ∈ ps, p.Fine) →
    countDof dof (ps.map Piece.text) = .ok (dof + (ps.map Piece.points).sum)
  | [], dof, _ => by simp [countDof]
  | p :: ps, dof, h => by
    have hp := h p (by simp)
    have ih := fun d => countDof_pieces ps d (fun q hq => h q (by simp [hq]))
    rw [List.map_cons, List.map_cons, List.sum_cons, countDof]
    cases p with
    | level l =>
      rw [if_pos (by rfl)]
      change ((levelPoints ((splitAt (fun c => !isWordChar c) (levelText l)).filter
        (fun w => !w.isEmpty))).bind fun n => countDof (dof + n) (ps.map Piece.text)) = _
      rw [words_levelText, levelPoints_level hp, ok_bind, ih, Nat.add_assoc]
      rfl
    | other line =>
      have hp' : ¬ (Piece.other line).text.head? = some '[' := hp
      rw [if_neg hp', ih]
      simp [Piece.points]

/-- **C129**, degrees of freedom: for two and more dimensions they are the number of points of all
component grids. Full statement: also in one dimension (`C129_one_dim_violated`) and with other lines
that begin with a bracket (`C129_message_violated`). -/
theorem C129_points_partial {ps : List Piece} (h : ∀ p ∈ ps, p.Fine) :
    countDof 0 (ps.map Piece.text) = .ok (ps.map Piece.points).sum := by
  rw [countDof_pieces ps 0 h, Nat.zero_add]

example : countDof 0 ["CombiScheme: ".toList, "[1 2 ]".toList, "[2 1 ]".toList, "[1 1 ]".toList]
    = .ok (8 + 8 + 4) :=
  C129_points_partial (ps := [.other "CombiScheme: ".toList, .level [1, 2], .level [2, 1], .level [1, 1]])
    (by simp [Piece.Fine])

/-! ### Names of folders -/

/-- The names of bases in the script that makes the folders: a word, or a word and `_periodic`. -/
def BasisName (b : Text) : Prop :=
  ∃ w : Text, (∀ c ∈ w, c ≠ '_' ∧ c ≠ '-' ∧ c ≠ 'D') ∧ (b = w ∨ b = w ++ "_periodic".toList)

private def sep (c : Char) : Bool := c == '_' || c == '-' || c == 'D'

private theorem sep_number {n : ℕ} : ∀ c ∈ Nat.toDigits 10 n, sep c = false := by
  intro c hc
  have hd := isDigit_number hc
  by_contra h
  have h' : sep c = true := by simpa using h
  simp only [sep, Bool.or_eq_true, beq_iff_eq] at h'
  rcases h' with (rfl | rfl) | rfl <;> revert hd <;> decide

private theorem split_tail (d l m : ℕ) :
    splitAt sep (Nat.toDigits 10 d ++ 'D' :: '_' :: (Nat.toDigits 10 l ++ '-' :: Nat.toDigits 10 m))
      = [Nat.toDigits 10 d, [], Nat.toDigits 10 l, Nat.toDigits 10 m] := by
  rw [splitAt_cons (by decide) sep_number]
  have : splitAt sep ('_' :: (Nat.toDigits 10 l ++ '-' :: Nat.toDigits 10 m))
      = [] :: splitAt sep (Nat.toDigits 10 l ++ '-' :: Nat.toDigits 10 m) := by
    rw [splitAt, if_pos (by decide)]
  rw [this, splitAt_cons (by decide) sep_number, splitAt_free sep_number]

private theorem number_ne_periodic (n : ℕ) : Nat.toDigits 10 n ≠ "periodic".toList := by
  intro h
  have : ('p').isDigit = true := isDigit_number (n := n) (by rw [h]; decide)
  revert this; decide

private theorem assoc_name (a b x y z : Text) :
    a ++ b ++ ['_'] ++ x ++ ['D', '_'] ++ y ++ ['-'] ++ z
      = a ++ (b ++ '_' :: (x ++ 'D' :: '_' :: (y ++ '-' :: z))) := by
  simp

private theorem assoc_periodic (a w q x y z : Text) :
    a ++ (w ++ '_' :: q) ++ ['_'] ++ x ++ ['D', '_'] ++ y ++ ['-'] ++ z
      = a ++ (w ++ '_' :: (q ++ '_' :: (x ++ 'D' :: '_' :: (y ++ '-' :: z)))) := by
  simp

private theorem parameters_plain {root p0 p1 p2 : Text} {rest : List Text}
    (h : splitAt sep root = p0 :: p1 :: p2 :: rest) (hp : p2 ≠ "periodic".toList) :
    parameters root = .ok (p0 :: p1 :: p2 :: rest) := by
  have h' : splitAt (fun c => c == '_' || c == '-' || c == 'D') root = p0 :: p1 :: p2 :: rest := h
  unfold parameters
  simp only [h', if_neg hp]

private theorem parameters_periodic {root p0 p1 : Text} {rest : List Text}
    (h : splitAt sep root = p0 :: p1 :: "periodic".toList :: rest) :
    parameters root = .ok (p0 :: (p1 ++ "_periodic".toList) :: rest) := by
  have h' : splitAt (fun c => c == '_' || c == '-' || c == 'D') root
      = p0 :: p1 :: "periodic".toList :: rest := h
  unfold parameters
  simp only [h', if_true]

private theorem makeRow_of {root p0 b x e y z : Text} {d l m : ℕ} {numbers : List ℚ} {dof : ℕ}
    (h : parameters root = .ok [p0, b, x, e, y, z]) (hx : toInt x = some d) (hy : toInt y = some l)
    (hz : toInt z = some m) (hn : numbers.length = 4) :
    makeRow root numbers dof = .ok ⟨b, d, l, m, numbers, dof⟩ := by
  unfold makeRow
  rw [h, ok_bind]
  simp [hx, hy, hz, hn]

/-- **C129**, parameters: basis, dimension and levels are those of the folder. -/
theorem C129_parameters {b : Text} (hb : BasisName b) (d l m : ℕ) {numbers : List ℚ}
    (hn : numbers.length = 4) (dof : ℕ) :
    makeRow (folder b d l m) numbers dof = .ok ⟨b, d, l, m, numbers, dof⟩ := by
  obtain ⟨w, hw, hb⟩ := hb
  have hw' : ∀ c ∈ w, sep c = false := fun c hc => by
    obtain ⟨h1, h2, h3⟩ := hw c hc
    simp [sep, h1, h2, h3]
  have hstart : ∀ s : Text, splitAt sep ("./advection_".toList ++ s)
      = "./advection".toList :: splitAt sep s := fun s => by
    have : "./advection_".toList ++ s = "./advection".toList ++ '_' :: s := rfl
    rw [this, splitAt_cons (by decide) (by decide)]
  have hD : "D_".toList = ['D', '_'] := by decide
  have hP : "_periodic".toList = '_' :: "periodic".toList := by decide
  have hpar : parameters (folder b d l m)
      = .ok ["./advection".toList, b, Nat.toDigits 10 d, [], Nat.toDigits 10 l, Nat.toDigits 10 m] := by
    rcases hb with rfl | rfl
    · have h : splitAt sep (folder b d l m) = ["./advection".toList, b, Nat.toDigits 10 d, [],
          Nat.toDigits 10 l, Nat.toDigits 10 m] := by
        have e : folder b d l m = "./advection_".toList ++ (b ++ '_' :: (Nat.toDigits 10 d ++ 'D' :: '_' ::
            (Nat.toDigits 10 l ++ '-' :: Nat.toDigits 10 m))) := by
          unfold folder; rw [hD]; exact assoc_name _ _ _ _ _
        rw [e, hstart, splitAt_cons (by decide) hw', split_tail]
      exact parameters_plain h (number_ne_periodic d)
    · have h : splitAt sep (folder (w ++ "_periodic".toList) d l m) = ["./advection".toList, w,
          "periodic".toList, Nat.toDigits 10 d, [], Nat.toDigits 10 l, Nat.toDigits 10 m] := by
        have e : folder (w ++ "_periodic".toList) d l m = "./advection_".toList ++ (w ++ '_' ::
            ("periodic".toList ++ '_' :: (Nat.toDigits 10 d ++ 'D' :: '_' ::
            (Nat.toDigits 10 l ++ '-' :: Nat.toDigits 10 m)))) := by
          unfold folder; rw [hD, hP]; exact assoc_periodic _ _ _ _ _ _
        rw [e, hstart, splitAt_cons (by decide) hw', splitAt_cons (by decide) (by decide), split_tail]
      exact parameters_periodic h
  exact makeRow_of hpar (toInt_number d) (toInt_number l) (toInt_number m) hn

example : BasisName "hat".toList ∧ BasisName "biorthogonal_periodic".toList ∧
    folder "biorthogonal_periodic".toList 3 2 11
      = "./advection_biorthogonal_periodic_3D_2-11".toList :=
  ⟨⟨"hat".toList, by decide, Or.inl rfl⟩, ⟨"biorthogonal".toList, by decide, Or.inr rfl⟩, by decide⟩

/-! ### The table -/

/-- A run: its parameters, its output without the last line, the last line. -/
structure Run where
  basis : Text
  dim : ℕ
  lmin : ℕ
  lmax : ℕ
  pieces : List Piece
  last : Text

/-- The file of a run. -/
def Run.file (r : Run) : Text × List Text :=
  (folder r.basis r.dim r.lmin r.lmax, r.pieces.map Piece.text ++ [r.last])

/-- The row of a run, if the last line has the numbers of time 1. -/
def Run.row (parse : Text → Option (List ℚ)) (r : Run) : Option Row :=
  match parse r.last with
  | some (t :: ns) =>
    if t = 1 then
      some ⟨r.basis, r.dim, r.lmin, r.lmax, t :: ns, (r.pieces.map Piece.points).sum⟩
    else none
  | _ => none

/-- **C129**: the table has exactly the rows of the finished runs. Hypotheses: no file is empty (a run
has a last line; see `C129_empty_violated`), grids have two or more dimensions, no other lines begin with
a bracket, and a last line with numbers has four of them. -/
theorem C129_table_partial {parse : Text → Option (List ℚ)} {runs : List Run}
    (hb : ∀ r ∈ runs, BasisName r.basis) (hp : ∀ r ∈ runs, ∀ p ∈ r.pieces, p.Fine)
    (hl : ∀ r ∈ runs, r.last.head? ≠ some '[')
    (hn : ∀ r ∈ runs, ∀ ns, parse r.last = some ns → ns.length = 4) (line : Option Text) :
    table parse line (runs.map Run.file) = .ok (runs.filterMap (Run.row parse)) := by
  induction runs generalizing line with
  | nil => rfl
  | cons r runs ih =>
    have ih' := fun line' => ih (fun q hq => hb q (by simp [hq])) (fun q hq => hp q (by simp [hq]))
      (fun q hq => hl q (by simp [hq])) (fun q hq => hn q (by simp [hq])) line'
    have hcount : countDof 0 (r.pieces.map Piece.text ++ [r.last])
        = .ok (r.pieces.map Piece.points).sum := by
      have := C129_points_partial (ps := r.pieces ++ [.other r.last]) (by
        intro p hpm
        rcases List.mem_append.mp hpm with h | h
        · exact hp r (by simp) p h
        · rw [List.mem_singleton.mp h]
          exact hl r (by simp))
      simpa [Piece.text, Piece.points] using this
    have hlast : (r.pieces.map Piece.text ++ [r.last]).getLast? = some r.last := by simp
    rw [List.map_cons]
    unfold Run.file table
    rw [hcount, ok_bind, hlast, Option.some_or]
    have ih2 : ∀ line', table parse line' (runs.map fun r => (folder r.basis r.dim r.lmin r.lmax,
        r.pieces.map Piece.text ++ [r.last])) = .ok (runs.filterMap (Run.row parse)) := ih'
    simp only
    cases hpar : parse r.last with
    | none =>
      have h1 : finished parse r.last = none := by unfold finished; rw [hpar]
      have h2 : Run.row parse r = none := by unfold Run.row; rw [hpar]
      rw [h1, List.filterMap_cons_none h2]
      exact ih2 _
    | some ns =>
      have h4 := hn r (by simp) ns hpar
      cases ns with
      | nil => simp at h4
      | cons t ns =>
        by_cases ht : t = 1
        · have h1 : finished parse r.last = some (t :: ns) := by
            unfold finished; rw [hpar]; simp only [if_pos ht]
          have h2 : Run.row parse r = some ⟨r.basis, r.dim, r.lmin, r.lmax, t :: ns,
              (r.pieces.map Piece.points).sum⟩ := by
            unfold Run.row; rw [hpar]; simp only [if_pos ht]
          rw [h1, List.filterMap_cons_some h2]
          simp only
          rw [C129_parameters (hb r (by simp)) _ _ _ h4, ok_bind, ih2, ok_bind]
        · have h1 : finished parse r.last = none := by
            unfold finished; rw [hpar]; simp only [if_neg ht]
          have h2 : Run.row parse r = none := by
            unfold Run.row; rw [hpar]; simp only [if_neg ht]
          rw [h1, List.filterMap_cons_none h2]
          exact ih2 _

/-- A way to read one line, for the examples. -/
def exampleParse (s : Text) : Option (List ℚ) :=
  if s = "1, 0.5, 0.25, 0.125 ".toList then some [1, 1 / 2, 1 / 4, 1 / 8]
  else if s = "0.5, 0.5, 0.25, 0.125 ".toList then some [1 / 2, 1 / 2, 1 / 4, 1 / 8]
  else none

/-- A run that is finished. -/
def exampleRun : Run :=
  ⟨"hat".toList, 2, 1, 2, [.level [1, 2], .level [2, 1], .level [1, 1]], "1, 0.5, 0.25, 0.125 ".toList⟩

/-- A run that is not finished. -/
def exampleRun' : Run := { exampleRun with last := "0.5, 0.5, 0.25, 0.125 ".toList }

example : table exampleParse none [exampleRun'.file, exampleRun.file]
    = .ok [⟨"hat".toList, 2, 1, 2, [1, 1 / 2, 1 / 4, 1 / 8], 20⟩] := by
  have h := C129_table_partial (parse := exampleParse) (runs := [exampleRun', exampleRun])
    (fun r hr => ⟨"hat".toList, by decide, Or.inl (by
      rcases List.mem_cons.mp hr with rfl | hr
      · rfl
      · rw [List.mem_singleton.mp hr]; rfl)⟩)
    (by simp [exampleRun', exampleRun, Piece.Fine]) (by decide)
    (by
      intro r hr ns hns
      rcases List.mem_cons.mp hr with rfl | hr
      · have e : exampleParse exampleRun'.last = some [1 / 2, 1 / 2, 1 / 4, 1 / 8] := by decide +kernel
        rw [e] at hns; cases hns; rfl
      · rw [List.mem_singleton.mp hr] at hns
        have e : exampleParse exampleRun.last = some [1, 1 / 2, 1 / 4, 1 / 8] := by decide +kernel
        rw [e] at hns; cases hns; rfl) none
  refine h.trans ?_
  decide +kernel

/-- **C129** fails if the output file of a run is still empty: the last line is that of the file before,
and the table gets a second row with its errors and no points. -/
theorem C129_empty_violated : table exampleParse none
    [exampleRun.file, (folder "hat".toList 2 1 3, [])]
    = .ok [⟨"hat".toList, 2, 1, 2, [1, 1 / 2, 1 / 4, 1 / 8], 20⟩,
        ⟨"hat".toList, 2, 1, 3, [1, 1 / 2, 1 / 4, 1 / 8], 0⟩] := by
  decide +kernel

/-- **C129** fails in one dimension: the only level is not converted to a number. -/
theorem C129_one_dim_violated (l dof : ℕ) (lines : List Text) :
    countDof dof (levelText [l] :: lines) = .error := by
  rw [countDof, if_pos (by rfl), words_levelText]
  rfl

/-- **C129** fails if another line begins with a bracket, like the messages of Open MPI: all files are
given up. -/
theorem C129_message_violated (dof : ℕ) (lines : List Text) :
    countDof dof ("[node7:123] mca: base: close".toList :: lines) = .error := by
  rw [countDof, if_pos (by rfl)]
  have : levelPoints ((splitAt (fun c => !isWordChar c) "[node7:123] mca: base: close".toList).filter
      (fun w => !w.isEmpty)) = .error := by decide
  rw [this]
  rfl

end Verif.ErrorTable
