import Verif.Model.FileIO

/-!
# The memory usage of processes

`/repo/src/mpi/MPIMemory.cpp`.

A file is the list of its characters. Variables of type `unsigned long` have 64 bits; a variable that
has not been assigned is `none`, and using its value is undefined behaviour. That `/proc/self/status`
can be opened and is read completely by one call of `fread` is assumed.
-/

namespace Verif.MemoryUsage

/-- The characters that `isspace` accepts. -/
def isSpace (c : Char) : Bool :=
  c == ' ' || c == '\t' || c == '\n' || c == '\x0b' || c == '\x0c' || c == '\r'

/-- l.22-25: `to_read`, the size of the buffer. -/
def toRead : ℕ := 8192

/-- The C string in the buffer: its characters and whether a null character ends it. -/
structure Buffer where
  chars : List Char
  terminated : Bool

/-- l.22-25: the buffer is filled with zeros before at most `to_read` characters are read. -/
def readBuffer (file : List Char) : Buffer :=
  let buf := file.take toRead
  ⟨buf.takeWhile (· != '\x00'), decide (file.length < toRead) || buf.contains '\x00'⟩

/-- `strtok` with the only delimiter `'\n'` on the characters `rest` that are left (l.33, l.48): the
next token and the characters after it, or `none` for `NULL`. Reading beyond the buffer is undefined
behaviour. -/
def strtok (terminated : Bool) (rest : List Char) : Outcome (Option (List Char × List Char)) :=
  let s := rest.dropWhile (· == '\n')
  let after := s.dropWhile (· != '\n')
  if after = [] ∧ terminated = false then .stuck
  else if s = [] then .ok none
  else .ok (some (s.takeWhile (· != '\n'), after.drop 1))

/-- The value of decimal digits. -/
def digitsValue (ds : List Char) : ℕ :=
  ds.foldl (fun n c => 10 * n + (c.toNat - '0'.toNat)) 0

/-- The conversion `%lu` after white space has been skipped: an optional sign and digits; `none` if
there are no digits. A minus sign negates in the type `unsigned long`. That a number is not
representable is undefined behaviour. -/
def scanUnsigned (s : List Char) : Outcome (Option ℕ) :=
  let neg := s.head? == some '-'
  let body := if s.head? == some '-' || s.head? == some '+' then s.drop 1 else s
  let ds := body.takeWhile Char.isDigit
  if ds = [] then .ok none
  else if 18446744073709551616 ≤ digitsValue ds then .stuck
  else if neg then .ok (some ((18446744073709551616 - digitsValue ds) % 18446744073709551616))
  else .ok (some (digitsValue ds))

/-- `sscanf(line, "%*s %lu", ...)`, l.38 and l.44: skips white space, a word and white space, and reads
a number. -/
def scanLine (line : List Char) : Outcome (Option ℕ) :=
  scanUnsigned (((line.dropWhile isSpace).dropWhile (fun c => !isSpace c)).dropWhile isSpace)

/-- The variables of `get_memory_usage_kb`. -/
structure State where
  foundRss : Bool
  foundSize : Bool
  rss : Option ℕ
  size : Option ℕ
  deriving DecidableEq, Repr

/-- l.36-40: the variable keeps its value if nothing is converted. -/
def stepRss (line : List Char) (st : State) : Outcome State :=
  if "VmRSS:".toList <:+: line then
    (scanLine line).bind fun v => .ok { st with foundRss := true, rss := v.or st.rss }
  else .ok st

/-- l.42-46. -/
def stepSize (line : List Char) (st : State) : Outcome State :=
  if "VmSize:".toList <:+: line then
    (scanLine line).bind fun v => .ok { st with foundSize := true, size := v.or st.size }
  else .ok st

/-- A token that `strtok` found is not empty, so less is left. -/
theorem strtok_length {t : Bool} {rest line rest' : List Char}
    (h : strtok t rest = .ok (some (line, rest'))) : rest'.length < rest.length := by
  unfold strtok at h
  simp only at h
  split at h
  · cases h
  · split at h
    · cases h
    · rename_i _ hs
      cases h
      have h1 : (rest.dropWhile (· == '\n')).length ≤ rest.length :=
        (List.dropWhile_sublist _).length_le
      generalize hl : rest.dropWhile (· == '\n') = s at *
      cases s with
      | nil => exact absurd rfl hs
      | cons c s =>
        have hc : ¬ (c == '\n') = true := by
          intro hc
          have := List.head?_dropWhile_not (fun c : Char => c == '\n') rest
          rw [hl] at this
          simp [hc] at this
        have hc' : (c != '\n') = true := by simpa using hc
        rw [List.dropWhile_cons_of_pos (p := fun x => x != '\n') hc', List.length_drop]
        have h2 : (s.dropWhile (· != '\n')).length ≤ s.length :=
          (List.dropWhile_sublist _).length_le
        simp only [List.length_cons] at h1
        omega

/-- The loop l.33-49 from a call of `strtok` on. -/
def loop (t : Bool) (rest : List Char) (st : State) : Outcome State :=
  match _h : strtok t rest with
  | .stuck => .stuck
  | .error => .error
  | .ok none => .ok st
  | .ok (some (line, rest')) =>
    if st.foundRss && st.foundSize then .ok st
    else ((stepRss line st).bind (stepSize line)).bind (loop t rest')
termination_by rest.length
decreasing_by exact strtok_length (by assumption)

/-- `get_memory_usage_kb`, l.18-52: the return code and the two values. -/
def getMemoryUsage (file : List Char) : Outcome (ℕ × Option ℕ × Option ℕ) :=
  let b := readBuffer file
  (loop b.terminated b.chars ⟨false, false, none, none⟩).bind fun st =>
    .ok (if st.foundRss && st.foundSize then 0 else 1, st.rss, st.size)

/-- The results of all processes if none of them is stuck. -/
def gather : List (Outcome (ℕ × Option ℕ × Option ℕ)) → Outcome (List (ℕ × Option ℕ × Option ℕ))
  | [] => .ok []
  | x :: xs => x.bind fun a => (gather xs).bind fun as => .ok (a :: as)

/-- The sum over all processes of `MPI_Allreduce` with `MPI_UNSIGNED_LONG`; `none` if a summand has not
been assigned. -/
def sumMod : List (Option ℕ) → Option ℕ
  | [] => some 0
  | x :: xs => match x, sumMod xs with
    | some a, some b => some ((a + b) % 18446744073709551616)
    | _, _ => none

/-- `get_all_memory_usage_kb`, l.54-68, with the files of the processes of the communicator: the return
code and the two sums, the same on all processes. A process that fails does not call `MPI_Allreduce`,
for which the others wait. If all fail the results are not assigned. -/
def getAllMemoryUsage (files : List (List Char)) : Outcome (ℕ × Option ℕ × Option ℕ) :=
  (gather (files.map getMemoryUsage)).bind fun rs =>
    if rs.all (fun r => r.1 != 0) && !rs.isEmpty then .ok (1, none, none)
    else if rs.any (fun r => r.1 != 0) then .stuck
    else match sumMod (rs.map (·.2.1)), sumMod (rs.map (·.2.2)) with
      | some a, some b => .ok (0, some a, some b)
      | _, _ => .stuck

/-- How `printf` shows an `unsigned long` with `%ld`. -/
def asLong (n : ℕ) : ℤ := if n < 9223372036854775808 then n else (n : ℤ) - 18446744073709551616

/-- The difference of two values of type `unsigned long`. -/
def subUnsigned (a b : ℕ) : ℕ := (a + (18446744073709551616 - b)) % 18446744073709551616

/-- `print_memory_usage_comm_minus_ref`, l.103-110: the numbers that rank 0 prints. The return code is
not looked at. (`print_memory_usage_comm` is the case of zeros.) -/
def printMinusRef (refRss refSize : ℕ) (files : List (List Char)) : Outcome (ℕ × ℤ × ℤ) :=
  (getAllMemoryUsage files).bind fun r =>
    match r.2.1, r.2.2 with
    | some a, some b =>
      .ok (files.length, asLong (subUnsigned a refRss), asLong (subUnsigned b refSize))
    | _, _ => .stuck

end Verif.MemoryUsage
