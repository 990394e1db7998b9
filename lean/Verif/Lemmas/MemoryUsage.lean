import Verif.Model.MemoryUsage
import Mathlib.Data.List.Basic

/-! Lemmas about `Verif.Model.MemoryUsage`. -/

namespace Verif.MemoryUsage

theorem ok_bind {α β : Type} (a : α) (f : α → Outcome β) : (Outcome.ok a).bind f = f a := rfl

theorem digitsValue_toDigits (n : ℕ) : digitsValue (Nat.toDigits 10 n) = n :=
  Nat.ofDigitChars_toDigits (b := 10) (n := n) (by omega) (by omega)

theorem isDigit_toDigits {n : ℕ} {c : Char} (h : c ∈ Nat.toDigits 10 n) : c.isDigit = true :=
  Nat.isDigit_of_mem_toDigits (by decide) (by decide) h

theorem toDigits_ne_nil (n : ℕ) : Nat.toDigits 10 n ≠ [] := by
  have := Nat.length_toDigits_pos (b := 10) (n := n)
  intro h
  rw [h] at this
  simp at this

theorem not_isSpace_of_isDigit {c : Char} (h : c.isDigit = true) : isSpace c = false := by
  by_contra hs
  have hs' : isSpace c = true := by simpa using hs
  simp only [isSpace, Bool.or_eq_true, beq_iff_eq] at hs'
  rcases hs' with ((((hs' | hs') | hs') | hs') | hs') | hs' <;> subst hs' <;> revert h <;> decide

theorem dropWhile_append_all {α : Type} {p : α → Bool} {l r : List α} (h : ∀ x ∈ l, p x = true) :
    (l ++ r).dropWhile p = r.dropWhile p := by
  induction l with
  | nil => rfl
  | cons a l ih =>
    rw [List.cons_append, List.dropWhile_cons_of_pos (h a (by simp)), ih fun x hx => h x (by simp [hx])]

theorem takeWhile_append_stop {α : Type} {p : α → Bool} {l r : List α} (h : ∀ x ∈ l, p x = true)
    (hr : r.head?.all (fun x => !p x) = true) : (l ++ r).takeWhile p = l := by
  induction l with
  | nil =>
    cases r with
    | nil => rfl
    | cons a r =>
      simp only [List.head?_cons, Option.all_some, Bool.not_eq_true'] at hr
      simp [hr]
  | cons a l ih =>
    rw [List.cons_append, List.takeWhile_cons_of_pos (h a (by simp)), ih fun x hx => h x (by simp [hx])]

theorem takeWhile_all {α : Type} {p : α → Bool} {l : List α} (h : ∀ x ∈ l, p x = true) :
    l.takeWhile p = l := by
  have := takeWhile_append_stop (r := []) h rfl
  rwa [List.append_nil] at this

theorem dropWhile_stop {α : Type} {p : α → Bool} {r : List α}
    (hr : r.head?.all (fun x => !p x) = true) : r.dropWhile p = r := by
  cases r with
  | nil => rfl
  | cons a r =>
    simp only [List.head?_cons, Option.all_some, Bool.not_eq_true'] at hr
    simp [hr]

theorem head_toDigits (n : ℕ) (r : List Char) :
    ∃ c, (Nat.toDigits 10 n ++ r).head? = some c ∧ c.isDigit = true := by
  cases h : Nat.toDigits 10 n with
  | nil => exact absurd h (toDigits_ne_nil n)
  | cons c l => exact ⟨c, rfl, isDigit_toDigits (n := n) (by rw [h]; simp)⟩

theorem scanUnsigned_toDigits {n : ℕ} (hn : n < 18446744073709551616) :
    scanUnsigned (Nat.toDigits 10 n ++ " kB".toList) = .ok (some n) := by
  obtain ⟨c, hc, hd⟩ := head_toDigits n " kB".toList
  have h1 : (some c == some '-') = false := by
    simp only [Option.some_beq_some, beq_eq_false_iff_ne]
    rintro rfl
    revert hd; decide
  have h2 : (some c == some '+') = false := by
    simp only [Option.some_beq_some, beq_eq_false_iff_ne]
    rintro rfl
    revert hd; decide
  have h3 : (Nat.toDigits 10 n ++ " kB".toList).takeWhile Char.isDigit = Nat.toDigits 10 n :=
    takeWhile_append_stop (fun x hx => isDigit_toDigits hx) (by decide)
  have h4 : ¬ (18446744073709551616 ≤ n) := Nat.not_le.mpr hn
  unfold scanUnsigned
  simp only [hc, h1, h2, Bool.or_self, Bool.false_eq_true, if_false, h3, digitsValue_toDigits,
    toDigits_ne_nil, h4]

/-- A line with the name of a field, white space, a number and the unit. -/
theorem scanLine_field {key w : List Char} {n : ℕ} (hk : ∀ c ∈ key, isSpace c = false)
    (hw : w ≠ []) (hw' : ∀ c ∈ w, isSpace c = true) (hn : n < 18446744073709551616) :
    scanLine (key ++ w ++ Nat.toDigits 10 n ++ " kB".toList) = .ok (some n) ∨ key = [] := by
  cases key with
  | nil => exact Or.inr rfl
  | cons k ks =>
    refine Or.inl ?_
    have e1 : ((k :: ks) ++ w ++ Nat.toDigits 10 n ++ " kB".toList).dropWhile isSpace
        = (k :: ks) ++ (w ++ (Nat.toDigits 10 n ++ " kB".toList)) := by
      rw [dropWhile_stop]
      · simp only [List.append_assoc]
      · simp [hk k (by simp)]
    have e2 : ((k :: ks) ++ (w ++ (Nat.toDigits 10 n ++ " kB".toList))).dropWhile
        (fun c => !isSpace c) = w ++ (Nat.toDigits 10 n ++ " kB".toList) := by
      rw [dropWhile_append_all (fun x hx => by simp [hk x hx])]
      cases w with
      | nil => exact absurd rfl hw
      | cons a w => simp [hw' a (by simp)]
    have e3 : (w ++ (Nat.toDigits 10 n ++ " kB".toList)).dropWhile isSpace
        = Nat.toDigits 10 n ++ " kB".toList := by
      rw [dropWhile_append_all hw', dropWhile_stop]
      obtain ⟨c, hc, hd⟩ := head_toDigits n " kB".toList
      rw [hc]
      simp [not_isSpace_of_isDigit hd]
    unfold scanLine
    rw [e1, e2, e3, scanUnsigned_toDigits hn]

/-- `strtok` at the beginning of a line. -/
theorem strtok_line {t : Bool} {l r : List Char} (hl : l ≠ []) (hn : '\n' ∉ l) :
    strtok t (l ++ '\n' :: r) = .ok (some (l, r)) := by
  have e1 : (l ++ '\n' :: r).dropWhile (· == '\n') = l ++ '\n' :: r := by
    refine dropWhile_stop ?_
    cases l with
    | nil => exact absurd rfl hl
    | cons a l =>
      simp only [List.mem_cons, not_or] at hn
      simp [Ne.symm hn.1]
  have hp : ∀ x ∈ l, (x != '\n') = true := fun x hx => by
    simp only [bne_iff_ne]
    rintro rfl
    exact hn hx
  have e2 : (l ++ '\n' :: r).dropWhile (· != '\n') = '\n' :: r := by
    rw [dropWhile_append_all hp]; simp
  have e3 : (l ++ '\n' :: r).takeWhile (· != '\n') = l :=
    takeWhile_append_stop hp (by simp)
  unfold strtok
  simp only [e1, e2, e3]
  simp [hl]

theorem loop_nil (st : State) : loop true [] st = .ok st := by
  rw [loop]
  simp [strtok]

theorem loop_stuck {t : Bool} {rest : List Char} {st : State} (h : strtok t rest = .stuck) :
    loop t rest st = .stuck := by
  rw [loop]
  split <;> simp_all

theorem loop_some {t : Bool} {rest line rest' : List Char} {st : State}
    (h : strtok t rest = .ok (some (line, rest'))) :
    loop t rest st = if st.foundRss && st.foundSize then .ok st
      else ((stepRss line st).bind (stepSize line)).bind (loop t rest') := by
  rw [loop]
  split <;> simp_all

theorem loop_line {t : Bool} {l r : List Char} {st : State} (hl : l ≠ []) (hn : '\n' ∉ l) :
    loop t (l ++ '\n' :: r) st = if st.foundRss && st.foundSize then .ok st
      else ((stepRss l st).bind (stepSize l)).bind (loop t r) :=
  loop_some (strtok_line hl hn)

theorem loop_lines {lr ls : List Char} {a b : ℕ} (hr : scanLine lr = .ok (some a))
    (hs : scanLine ls = .ok (some b)) :
    ∀ (lines : List (List Char)) (st : State), (∀ l ∈ lines, l ≠ [] ∧ '\n' ∉ l) →
      (∀ l ∈ lines, "VmRSS:".toList <:+: l → l = lr) →
      (∀ l ∈ lines, "VmSize:".toList <:+: l → l = ls) →
      (st.foundRss = true → st.rss = some a) → (st.foundSize = true → st.size = some b) →
      (st.foundRss = true ∨ ∃ l ∈ lines, "VmRSS:".toList <:+: l) →
      (st.foundSize = true ∨ ∃ l ∈ lines, "VmSize:".toList <:+: l) →
      loop true (lines.flatMap (· ++ ['\n'])) st = .ok ⟨true, true, some a, some b⟩ := by
  intro lines
  induction lines with
  | nil =>
    intro st _ _ _ h1 h2 h3 h4
    obtain ⟨fr, fs, r, s⟩ := st
    simp only [List.not_mem_nil, false_and, exists_false, or_false] at h3 h4
    simp only at h1 h2 h3 h4
    subst h3 h4
    rw [List.flatMap_nil, loop_nil, h1 rfl, h2 rfl]
  | cons l lines ih =>
    intro st hl hlr hls h1 h2 h3 h4
    have hll := hl l (by simp)
    rw [List.flatMap_cons, List.append_assoc, List.singleton_append, loop_line hll.1 hll.2]
    by_cases hf : (st.foundRss && st.foundSize) = true
    · rw [if_pos hf]
      obtain ⟨fr, fs, r, s⟩ := st
      simp only [Bool.and_eq_true] at hf h1 h2
      rw [hf.1, hf.2, h1 hf.1, h2 hf.2]
    · rw [if_neg hf]
      have hl' : ∀ l' ∈ lines, l' ≠ [] ∧ '\n' ∉ l' := fun x hx => hl x (by simp [hx])
      have hlr' : ∀ l' ∈ lines, "VmRSS:".toList <:+: l' → l' = lr := fun x hx => hlr x (by simp [hx])
      have hls' : ∀ l' ∈ lines, "VmSize:".toList <:+: l' → l' = ls := fun x hx => hls x (by simp [hx])
      obtain ⟨st1, e1, f1, f2, f3, f4, f5⟩ : ∃ st1, stepRss l st = .ok st1 ∧
          (st1.foundRss = true → st1.rss = some a) ∧
          (st1.foundRss = true ∨ ∃ l ∈ lines, "VmRSS:".toList <:+: l) ∧
          st1.foundSize = st.foundSize ∧ st1.size = st.size ∧ True := by
        unfold stepRss
        by_cases hc : "VmRSS:".toList <:+: l
        · rw [if_pos hc, hlr l (by simp) hc, hr, ok_bind]
          exact ⟨_, rfl, fun _ => rfl, Or.inl rfl, rfl, rfl, trivial⟩
        · rw [if_neg hc]
          refine ⟨st, rfl, h1, ?_, rfl, rfl, trivial⟩
          rcases h3 with h3 | ⟨x, hx, hx'⟩
          · exact Or.inl h3
          · rcases List.mem_cons.mp hx with rfl | hx
            · exact absurd hx' hc
            · exact Or.inr ⟨x, hx, hx'⟩
      obtain ⟨st2, e2, g1, g2, g3, g4⟩ : ∃ st2, stepSize l st1 = .ok st2 ∧
          (st2.foundSize = true → st2.size = some b) ∧
          (st2.foundSize = true ∨ ∃ l ∈ lines, "VmSize:".toList <:+: l) ∧
          st2.foundRss = st1.foundRss ∧ st2.rss = st1.rss := by
        unfold stepSize
        by_cases hc : "VmSize:".toList <:+: l
        · rw [if_pos hc, hls l (by simp) hc, hs, ok_bind]
          exact ⟨_, rfl, fun _ => rfl, Or.inl rfl, rfl, rfl⟩
        · rw [if_neg hc]
          refine ⟨st1, rfl, ?_, ?_, rfl, rfl⟩
          · rw [f3, f4]; exact h2
          · rw [f3]
            rcases h4 with h4 | ⟨x, hx, hx'⟩
            · exact Or.inl h4
            · rcases List.mem_cons.mp hx with rfl | hx
              · exact absurd hx' hc
              · exact Or.inr ⟨x, hx, hx'⟩
      rw [e1, ok_bind, e2, ok_bind]
      exact ih st2 hl' hlr' hls' (by rw [g3, g4]; exact f1) g1 (by rw [g3]; exact f2) g2

/-- What `strtok` returns is part of the buffer. -/
theorem strtok_infix {t : Bool} {rest line rest' : List Char}
    (h : strtok t rest = .ok (some (line, rest'))) : line <:+: rest ∧ rest' <:+: rest := by
  unfold strtok at h
  simp only at h
  split at h
  · cases h
  · split at h
    · cases h
    · cases h
      have h0 : (rest.dropWhile (· == '\n')) <:+: rest := (List.dropWhile_suffix _).isInfix
      exact ⟨(List.takeWhile_prefix _).isInfix.trans h0,
        (List.drop_suffix _ _).isInfix.trans ((List.dropWhile_suffix _).isInfix.trans h0)⟩

theorem stepRss_found {line : List Char} {st st' : State} (h : stepRss line st = .ok st') :
    (st'.foundRss = true → st.foundRss = true ∨ "VmRSS:".toList <:+: line) ∧
      st'.foundSize = st.foundSize := by
  unfold stepRss at h
  split at h
  · rename_i hc
    cases hv : scanLine line with
    | ok v => rw [hv, ok_bind] at h; cases h; exact ⟨fun _ => Or.inr hc, rfl⟩
    | error => rw [hv] at h; cases h
    | stuck => rw [hv] at h; cases h
  · cases h; exact ⟨Or.inl, rfl⟩

theorem stepSize_found {line : List Char} {st st' : State} (h : stepSize line st = .ok st') :
    (st'.foundSize = true → st.foundSize = true ∨ "VmSize:".toList <:+: line) ∧
      st'.foundRss = st.foundRss := by
  unfold stepSize at h
  split at h
  · rename_i hc
    cases hv : scanLine line with
    | ok v => rw [hv, ok_bind] at h; cases h; exact ⟨fun _ => Or.inr hc, rfl⟩
    | error => rw [hv] at h; cases h
    | stuck => rw [hv] at h; cases h
  · cases h; exact ⟨Or.inl, rfl⟩

/-- Fields are only found if they are in the buffer. -/
theorem loop_found {t : Bool} {rest : List Char} {st st' : State} (h : loop t rest st = .ok st') :
    (st'.foundRss = true → st.foundRss = true ∨ "VmRSS:".toList <:+: rest) ∧
      (st'.foundSize = true → st.foundSize = true ∨ "VmSize:".toList <:+: rest) := by
  induction hn : rest.length using Nat.strong_induction_on generalizing rest st with
  | _ n ih =>
    rw [loop] at h
    split at h
    · cases h
    · cases h
    · cases h; exact ⟨Or.inl, Or.inl⟩
    · rename_i line rest' hs
      obtain ⟨i1, i2⟩ := strtok_infix hs
      split at h
      · cases h; exact ⟨Or.inl, Or.inl⟩
      · cases h1 : stepRss line st with
        | error => rw [h1] at h; cases h
        | stuck => rw [h1] at h; cases h
        | ok s1 =>
          rw [h1, ok_bind] at h
          cases h2 : stepSize line s1 with
          | error => rw [h2] at h; cases h
          | stuck => rw [h2] at h; cases h
          | ok s2 =>
            rw [h2, ok_bind] at h
            obtain ⟨a1, a2⟩ := stepRss_found h1
            obtain ⟨b1, b2⟩ := stepSize_found h2
            obtain ⟨c1, c2⟩ := ih rest'.length (by have := strtok_length hs; omega) h rfl
            refine ⟨fun hf => ?_, fun hf => ?_⟩
            · rcases c1 hf with hc | hc
              · rw [b2] at hc
                exact (a1 hc).imp_right fun hi => hi.trans i1
              · exact Or.inr (hc.trans i2)
            · rcases c2 hf with hc | hc
              · rcases b1 hc with hd | hd
                · rw [a2] at hd
                  exact Or.inl hd
                · exact Or.inr (hd.trans i1)
              · exact Or.inr (hc.trans i2)

/-- A buffer without a null character that does not have a field `VmRSS` is read beyond its end. -/
theorem loop_unterminated {rest : List Char} {st : State} (hf : st.foundRss = false)
    (hr : ¬ "VmRSS:".toList <:+: rest) : ∀ x, loop false rest st ≠ .ok x ∧ loop false rest st ≠ .error := by
  induction hn : rest.length using Nat.strong_induction_on generalizing rest st with
  | _ n ih =>
    intro x
    rw [loop]
    split
    · simp
    · rename_i h
      unfold strtok at h
      simp only at h
      split at h
      · cases h
      · split at h <;> cases h
    · rename_i h
      unfold strtok at h
      simp only at h
      split at h
      · cases h
      · rename_i h'
        split at h
        · rename_i hs
          exact absurd ⟨by rw [hs]; rfl, trivial⟩ h'
        · cases h
    · rename_i line rest' h
      have hlen := strtok_length h
      have hsub : line <:+: rest ∧ rest' <:+: rest := by
        unfold strtok at h
        simp only at h
        split at h
        · cases h
        · split at h
          · cases h
          · cases h
            have h0 : (rest.dropWhile (· == '\n')) <:+: rest := (List.dropWhile_suffix _).isInfix
            exact ⟨(List.takeWhile_prefix _).isInfix.trans h0,
              (List.drop_suffix _ _).isInfix.trans ((List.dropWhile_suffix _).isInfix.trans h0)⟩
      have hline : ¬ "VmRSS:".toList <:+: line := fun hc => hr (hc.trans hsub.1)
      rw [if_neg (by simp [hf])]
      have e1 : stepRss line st = .ok st := by unfold stepRss; rw [if_neg hline]
      rw [e1, ok_bind]
      have key : ∀ st', stepSize line st = .ok st' → st'.foundRss = false := by
        intro st' hst
        unfold stepSize at hst
        split at hst
        · cases hv : scanLine line with
          | ok v => rw [hv, ok_bind] at hst; cases hst; exact hf
          | error => rw [hv] at hst; cases hst
          | stuck => rw [hv] at hst; cases hst
        · cases hst; exact hf
      have nerr : stepSize line st ≠ .error := by
        unfold stepSize
        split
        · have : scanLine line ≠ .error := by
            unfold scanLine scanUnsigned
            simp only
            intro hc
            repeat' (split at hc <;> first | cases hc | skip)
          cases hv : scanLine line with
          | ok v => rw [ok_bind]; simp
          | error => exact absurd hv this
          | stuck => simp [Outcome.bind]
        · simp
      cases h2 : stepSize line st with
      | ok st' =>
        rw [ok_bind]
        exact ih rest'.length (by omega) (key st' h2) (fun hc => hr (hc.trans hsub.2)) rfl x
      | error => exact absurd h2 nerr
      | stuck => simp [Outcome.bind]

end Verif.MemoryUsage
