import Verif.Lemmas.Threads
import Verif.Lemmas.Transfer
import Verif.Lemmas.DistributedGrid

/-!
# The loops over subspaces, poles and blocks as loops of threads
-/

namespace Verif.Threads

variable {A V K : Type} [DecidableEq A]

omit [DecidableEq A] in
theorem same_done {S : Type} {Q : S → Prop} (c : Code A V Unit) (s : S) (h : Q s) :
    Same Q (c.bind fun _ => .done s) c := by
  induction c with
  | done r => exact .done s h
  | read a k ih => exact .read _ _ _ ih
  | write a v k ih => exact .write _ _ _ _ ih
  | fail => exact .fail

omit [DecidableEq A] in
theorem same_weaken {S : Type} {Q Q' : S → Prop} {c : Code A V S} {b : Code A V Unit} (h : Same Q c b)
    (hq : ∀ s, Q s → Q' s) : Same Q' c b := by
  induction h with
  | done s hs => exact .done s (hq s hs)
  | read a k k' _ ih => exact .read _ _ _ ih
  | write a v k k' _ ih => exact .write _ _ _ _ ih
  | fail => exact .fail

/-! ### Extracting -/

/-- The part of the loop body after the search. -/
def extractCore (fully : Bool) (d : Dsg K) (dims : List LocalDim) (xlen : ℕ) (level : List ℕ) (sIndex : ℤ) :
    Code Cell K Unit :=
  (Code.ofOption (shouldBeCopied fully d sIndex)).bind fun b =>
    if b then (Code.ofOption d.ptr[sIndex.toNat]?).bind fun sp =>
      extractPointsCode d.data.len xlen sp (getFGPointsOfSubspace dims level)
    else .done ()

theorem extractIter_eq (fully : Bool) (d : Dsg K) (dims : List LocalDim) (xlen : ℕ) (hint : ℤ)
    (level : List ℕ) (i : ℤ) (h : getIndexFlat d.levels level hint = some i) :
    extractIter fully d dims xlen hint level =
      (extractCore fully d dims xlen level i).bind fun _ => .done i := by
  unfold extractIter extractCore
  rw [h]
  simp only [Code.ofOption, Code.bind]
  cases shouldBeCopied fully d i with
  | none => rfl
  | some b =>
    cases b with
    | false => rfl
    | true =>
      simp only [Code.bind, if_true]
      cases d.ptr[i.toNat]? with
      | none => rfl
      | some sp => rfl

/-- The loop body with a search from the beginning. -/
def freshBody (core : List ℕ → ℤ → Code Cell K Unit) (levels : List (List ℕ)) (level : List ℕ) :
    Code Cell K Unit :=
  match getIndexFlat levels level 0 with
  | some i => core level i
  | none => .fail

/-- Hints do not matter if the levels come in ascending order. -/
theorem same_fresh (core : List ℕ → ℤ → Code Cell K Unit) (iter : ℤ → List ℕ → Code Cell K ℤ)
    (levels : List (List ℕ)) (hs : levels.Pairwise (· < ·))
    (hiter : ∀ hint level i, getIndexFlat levels level hint = some i →
      iter hint level = (core level i).bind fun _ => .done i) (part : List (List ℕ))
    (hp : part.Pairwise (· < ·)) (hr : Reachable levels part) :
    (threadLoop iter 0 part).void = loopCode (freshBody core levels) part := by
  refine (threadLoop_void (fun hint ls => HintOk levels ls hint ∧ ls.Pairwise (· < ·) ∧ Reachable levels ls)
    ?_ part 0 ⟨HintOk.zero levels part, hp, hr⟩).void
  rintro hint l ls ⟨hh, hls, hre⟩
  have hre' : Reachable levels ls := fun l' h' => hre l' (by simp [h'])
  have h0 := (HintOk.zero levels (l :: ls)).next hs hls hre
  have h1 := hh.next hs hls hre
  have hnd : levels.Nodup := hs.imp fun h => ne_of_lt h
  obtain ⟨i, e0, e1, hok⟩ : ∃ i, getIndexFlat levels l 0 = some i ∧ getIndexFlat levels l hint = some i ∧
      HintOk levels ls i := by
    rcases h0 with ⟨i, hi, hl, hidx, -⟩ | ⟨hm, hidx, -⟩
    · rcases h1 with ⟨j, hj, hl', hidx', hok⟩ | ⟨hm, -⟩
      · obtain rfl : i = j := hnd.getElem_inj_iff.1 (hl.trans hl'.symm)
        exact ⟨i, hidx, hidx', hok⟩
      · exact absurd (hl ▸ List.getElem_mem hi) hm
    · rcases h1 with ⟨j, hj, hl', -⟩ | ⟨-, hidx', hok⟩
      · exact absurd (hl' ▸ List.getElem_mem hj) hm
      · exact ⟨-1, hidx, hidx', hok⟩
  rw [hiter hint l i e1, freshBody, e0]
  exact same_done _ _ ⟨hok, (List.pairwise_cons.1 hls).2, hre'⟩

theorem parallel_fresh (core : List ℕ → ℤ → Code Cell K Unit) (iter : ℤ → List ℕ → Code Cell K ℤ)
    (levels : List (List ℕ)) (hs : levels.Pairwise (· < ·))
    (hiter : ∀ hint level i, getIndexFlat levels level hint = some i →
      iter hint level = (core level i).bind fun _ => .done i) (all : List (List ℕ))
    (hall : all.Pairwise (· < ·)) (hr : Reachable levels all) (W : List ℕ → Cell → Prop)
    (hW : ∀ x ∈ all, ∀ y ∈ all, x ≠ y → ∀ a, W x a → ¬ W y a)
    (hb : ∀ x ∈ all, ∀ i, getIndexFlat levels x 0 = some i →
      Within (W x) (fun a => ∀ y ∈ all, y ≠ x → ¬ W y a) (core x i))
    (parts : List (List (List ℕ))) (hp : parts.flatten.Perm all) (hmono : ∀ p ∈ parts, p.Pairwise (· < ·))
    (m m' : Cell → K) (h : ℤ) (hseq : (threadLoop iter 0 all).run m = some (h, m')) :
    RunsTo (parallelFor iter 0 parts) m m' := by
  have e : parallelFor iter 0 parts = parts.map (loopCode (freshBody core levels)) := by
    unfold parallelFor
    apply List.map_congr_left
    intro p hpm
    refine same_fresh core iter levels hs hiter p (hmono p hpm) fun l hl => hr l ?_
    rw [← hp.mem_iff, List.mem_flatten]
    exact ⟨p, hpm, hl⟩
  rw [e]
  refine parts_run (hall.imp fun h => ne_of_lt h) hW ?_ parts hp m m' ?_
  · intro x hx
    unfold freshBody
    cases hi : getIndexFlat levels x 0 with
    | none => trivial
    | some i => exact hb x hx i hi
  · rw [← same_fresh core iter levels hs hiter all hall hr, Code.void, run_bind, hseq]
    rfl

theorem extractPoints_run (d : Dsg K) (g : Dfg K) (ps : List ℕ) (x x' : Buf K) (sp : ℕ)
    (h : extractPoints d.data x sp ps = some x') :
    (extractPointsCode d.data.len x.len sp ps).run (memory d { g with data := x }) =
      some ((), memory d { g with data := x' }) ∧ x'.len = x.len := by
  induction ps generalizing x sp with
  | nil =>
    obtain rfl := Option.some.inj h
    exact ⟨rfl, rfl⟩
  | cons p ps ih =>
    rw [extractPoints] at h
    simp only [Buf.get?, Buf.set?, Option.bind_eq_bind] at h
    by_cases h1 : sp < d.data.len
    · rw [if_pos h1, Option.bind_some] at h
      by_cases h2 : p < x.len
      · rw [if_pos h2, Option.bind_some] at h
        obtain ⟨e1, e2⟩ := ih _ _ h
        refine ⟨?_, e2⟩
        rw [extractPointsCode, if_pos h1]
        simp only [Code.run]
        rw [if_pos h2]
        simp only [Code.run]
        rw [← e1]
        congr 1
        funext a
        cases a with
        | full i =>
          by_cases e : i = p
          · subst e; simp [memory]
          · simp [memory, Function.update_of_ne, e]
        | sparse i => simp [memory]
        | kahan i => simp [memory]
      · rw [if_neg h2] at h; cases h
    · rw [if_neg h1] at h; cases h

theorem extractStep_run (fully : Bool) (d : Dsg K) (g g' : Dfg K) (hint hint' : ℤ) (level : List ℕ)
    (h : extractStep fully d (g, hint) level = some (g', hint')) :
    (extractIter fully d g.dims g.data.len hint level).run (memory d g) = some (hint', memory d g') ∧
      g'.dims = g.dims ∧ g'.data.len = g.data.len := by
  unfold extractStep at h
  unfold extractIter
  simp only [Option.bind_eq_bind] at h
  cases h1 : getIndexFlat d.levels level hint with
  | none => rw [h1] at h; cases h
  | some i =>
    rw [h1, Option.bind_some] at h
    simp only [Code.ofOption, Code.bind]
    cases h2 : shouldBeCopied fully d i with
    | none => rw [h2] at h; cases h
    | some b =>
      rw [h2, Option.bind_some] at h
      cases b with
      | false =>
        obtain ⟨rfl, rfl⟩ := Prod.mk.inj (Option.some.inj h)
        exact ⟨rfl, rfl, rfl⟩
      | true =>
        simp only [if_true] at h
        simp only [Code.bind, if_true]
        cases h3 : d.ptr[i.toNat]? with
        | none => rw [h3] at h; cases h
        | some sp =>
          rw [h3, Option.bind_some] at h
          simp only [Code.bind]
          cases h4 : extractPoints d.data g.data sp (getFGPointsOfSubspace g.dims level) with
          | none => rw [h4] at h; cases h
          | some x =>
            rw [h4, Option.bind_some] at h
            obtain ⟨rfl, rfl⟩ := Prod.mk.inj (Option.some.inj h)
            obtain ⟨e1, e2⟩ := extractPoints_run d g _ _ _ _ h4
            refine ⟨?_, rfl, e2⟩
            rw [run_bind, e1]
            rfl

theorem extractLoop_run (fully : Bool) (d : Dsg K) (ls : List (List ℕ)) (g g' : Dfg K) (hint hint' : ℤ)
    (h : ls.foldlM (extractStep fully d) (g, hint) = some (g', hint')) :
    (threadLoop (extractIter fully d g.dims g.data.len) hint ls).run (memory d g) =
      some (hint', memory d g') := by
  induction ls generalizing g hint with
  | nil =>
    obtain ⟨rfl, rfl⟩ := Prod.mk.inj (Option.some.inj h)
    rfl
  | cons l ls ih =>
    rw [List.foldlM_cons] at h
    cases h1 : extractStep fully d (g, hint) l with
    | none => rw [h1] at h; cases h
    | some r =>
      obtain ⟨g1, hint1⟩ := r
      rw [h1] at h
      obtain ⟨e1, e2, e3⟩ := extractStep_run fully d g g1 hint hint1 l h1
      have := ih g1 hint1 h
      rw [e2, e3] at this
      rw [threadLoop, run_bind, e1]
      exact this

omit [DecidableEq A] in
theorem within_ofOption {R S : Type} {w r : A → Prop} (o : Option R) (f : R → Code A V S)
    (h : ∀ x, o = some x → Within w r (f x)) : Within w r ((Code.ofOption o).bind f) := by
  cases o with
  | none => trivial
  | some x => exact h x rfl

theorem within_extractPoints (w r : Cell → Prop) (hr : ∀ i, r (.sparse i)) (slen xlen sp : ℕ) (ps : List ℕ)
    (hw : ∀ p ∈ ps, w (.full p)) : Within (V := K) w r (extractPointsCode slen xlen sp ps) := by
  induction ps generalizing sp with
  | nil => trivial
  | cons p ps ih =>
    rw [extractPointsCode]
    split
    · refine ⟨hr sp, fun v => ?_⟩
      split
      · exact ⟨hw p (by simp), ih (sp + 1) fun q hq => hw q (by simp [hq])⟩
      · trivial
    · trivial

/-! ### Adding -/

/-- The part of the loop body after the search. -/
def addCore (A : Adder K) (mul : K → K → K) (fully : Bool) (d : Dsg K) (g : Dfg K) (coeff : K)
    (level : List ℕ) (sIndex : ℤ) : Code Cell K Unit :=
  (Code.ofOption (shouldBeCopied fully d sIndex)).bind fun b =>
    if b then (Code.ofOption d.ptr[sIndex.toNat]?).bind fun sp =>
      (Code.ofOption d.kptr[sIndex.toNat]?).bind fun kp =>
        addPointsCode A mul coeff g.data.len d.data.len d.kahan.len sp kp (getFGPointsOfSubspace g.dims level)
    else .done ()

theorem addIter_eq (A : Adder K) (mul : K → K → K) (fully : Bool) (d : Dsg K) (g : Dfg K) (coeff : K) (hint : ℤ)
    (level : List ℕ) (i : ℤ) (h : getIndexFlat d.levels level hint = some i) :
    addIter A mul fully d g coeff hint level =
      (addCore A mul fully d g coeff level i).bind fun _ => .done i := by
  unfold addIter addCore
  rw [h]
  simp only [Code.ofOption, Code.bind]
  cases shouldBeCopied fully d i with
  | none => rfl
  | some b =>
    cases b with
    | false => rfl
    | true =>
      simp only [Code.bind, if_true]
      cases d.ptr[i.toNat]? with
      | none => rfl
      | some sp =>
        simp only [Code.bind]
        cases d.kptr[i.toNat]? with
        | none => rfl
        | some kp => rfl

theorem addPoints_run (A : Adder K) (mul : K → K → K) (coeff : K) (d : Dsg K) (g : Dfg K) (ps : List ℕ)
    (s k s' k' : Buf K) (sp kp : ℕ) (h : addPointsWith A mul coeff g.data s k sp kp ps = some (s', k')) :
    (addPointsCode A mul coeff g.data.len s.len k.len sp kp ps).run
        (memory { d with data := s, kahan := k } g) =
      some ((), memory { d with data := s', kahan := k' } g) ∧ s'.len = s.len ∧ k'.len = k.len := by
  induction ps generalizing s k sp kp with
  | nil =>
    obtain ⟨rfl, rfl⟩ := Prod.mk.inj (Option.some.inj h)
    exact ⟨rfl, rfl, rfl⟩
  | cons p ps ih =>
    rw [addPointsWith] at h
    simp only [Buf.get?, Buf.set?, Option.bind_eq_bind] at h
    by_cases h1 : p < g.data.len
    swap
    · rw [if_neg h1] at h; cases h
    by_cases h2 : kp < k.len
    swap
    · rw [if_pos h1, if_neg h2] at h; cases h
    by_cases h3 : sp < s.len
    swap
    · rw [if_pos h1, if_pos h2, if_neg h3] at h; cases h
    rw [if_pos h1, if_pos h2, if_pos h3] at h
    simp only [Option.bind_some, if_pos h2, if_pos h3] at h
    obtain ⟨e1, e2, e3⟩ := ih _ _ _ _ h
    refine ⟨?_, e2, e3⟩
    rw [addPointsCode, if_pos h1]
    simp only [Code.run]
    rw [if_pos h2]
    simp only [Code.run]
    rw [if_pos h3]
    simp only [Code.run]
    rw [← e1]
    congr 1
    funext a
    cases a with
    | full i => simp [memory]
    | sparse i =>
      by_cases e : i = sp
      · subst e; simp [memory]
      · simp [memory, Function.update_of_ne, e]
    | kahan i =>
      by_cases e : i = kp
      · subst e; simp [memory]
      · simp [memory, Function.update_of_ne, e]

theorem addStep_run (A : Adder K) (mul : K → K → K) (fully : Bool) (g : Dfg K) (coeff : K) (d d' : Dsg K)
    (hint hint' : ℤ) (level : List ℕ) (h : addStepWith A mul fully g coeff (d, hint) level = some (d', hint')) :
    (addIter A mul fully d g coeff hint level).run (memory d g) = some (hint', memory d' g) ∧
      d' = { d with data := d'.data, kahan := d'.kahan } ∧ d'.data.len = d.data.len ∧
      d'.kahan.len = d.kahan.len := by
  unfold addStepWith at h
  unfold addIter
  simp only [Option.bind_eq_bind] at h
  cases h1 : getIndexFlat d.levels level hint with
  | none => rw [h1] at h; cases h
  | some i =>
    rw [h1, Option.bind_some] at h
    simp only [Code.ofOption, Code.bind]
    cases h2 : shouldBeCopied fully d i with
    | none => rw [h2] at h; cases h
    | some b =>
      rw [h2, Option.bind_some] at h
      cases b with
      | false =>
        obtain ⟨rfl, rfl⟩ := Prod.mk.inj (Option.some.inj h)
        exact ⟨rfl, rfl, rfl, rfl⟩
      | true =>
        simp only [if_true] at h
        simp only [Code.bind, if_true]
        cases h3 : d.ptr[i.toNat]? with
        | none => rw [h3] at h; cases h
        | some sp =>
          rw [h3, Option.bind_some] at h
          simp only [Code.bind]
          cases h4 : d.kptr[i.toNat]? with
          | none => rw [h4] at h; cases h
          | some kp =>
            rw [h4, Option.bind_some] at h
            simp only [Code.bind]
            cases h5 : addPointsWith A mul coeff g.data d.data d.kahan sp kp
                (getFGPointsOfSubspace g.dims level) with
            | none => rw [h5] at h; cases h
            | some x =>
              rw [h5, Option.bind_some] at h
              obtain ⟨rfl, rfl⟩ := Prod.mk.inj (Option.some.inj h)
              obtain ⟨e1, e2, e3⟩ := addPoints_run A mul coeff d g _ _ _ _ _ _ _ h5
              refine ⟨?_, rfl, e2, e3⟩
              rw [run_bind, e1]
              rfl

theorem addIter_congr (A : Adder K) (mul : K → K → K) (fully : Bool) (g : Dfg K) (coeff : K) (d d' : Dsg K)
    (h : d' = { d with data := d'.data, kahan := d'.kahan }) (h1 : d'.data.len = d.data.len)
    (h2 : d'.kahan.len = d.kahan.len) : addIter A mul fully d' g coeff = addIter A mul fully d g coeff := by
  have e1 : d'.levels = d.levels := by rw [h]
  have e2 : d'.ptr = d.ptr := by rw [h]
  have e3 : d'.kptr = d.kptr := by rw [h]
  have e4 : shouldBeCopied fully d' = shouldBeCopied fully d := by
    funext i
    unfold shouldBeCopied
    have s1 : d'.sizes = d.sizes := by rw [h]
    have s2 : d'.sel = d.sel := by rw [h]
    rw [s1, s2]
  funext hint l
  unfold addIter
  rw [e1, e2, e3, e4, h1, h2]

theorem addLoop_run (A : Adder K) (mul : K → K → K) (fully : Bool) (g : Dfg K) (coeff : K)
    (ls : List (List ℕ)) (d d' : Dsg K) (hint hint' : ℤ)
    (h : ls.foldlM (addStepWith A mul fully g coeff) (d, hint) = some (d', hint')) :
    (threadLoop (addIter A mul fully d g coeff) hint ls).run (memory d g) = some (hint', memory d' g) := by
  induction ls generalizing d hint with
  | nil =>
    obtain ⟨rfl, rfl⟩ := Prod.mk.inj (Option.some.inj h)
    rfl
  | cons l ls ih =>
    rw [List.foldlM_cons] at h
    cases h1 : addStepWith A mul fully g coeff (d, hint) l with
    | none => rw [h1] at h; cases h
    | some r =>
      obtain ⟨d1, hint1⟩ := r
      rw [h1] at h
      obtain ⟨e1, e2, e3, e4⟩ := addStep_run A mul fully g coeff d d1 hint hint1 l h1
      have := ih d1 hint1 h
      rw [addIter_congr A mul fully g coeff d d1 e2 e3 e4] at this
      rw [threadLoop, run_bind, e1]
      exact this

theorem within_addPoints (A : Adder K) (mul : K → K → K) (coeff : K) (w r : Cell → Prop)
    (hr : ∀ i, r (.full i)) (hwr : ∀ a, w a → r a) (xlen slen klen sp kp : ℕ) (ps : List ℕ)
    (hw : ∀ j < ps.length, w (.sparse (sp + j)) ∧ w (.kahan (kp + j))) :
    Within w r (addPointsCode A mul coeff xlen slen klen sp kp ps) := by
  induction ps generalizing sp kp with
  | nil => trivial
  | cons p ps ih =>
    obtain ⟨w1, w2⟩ := hw 0 (by simp)
    rw [Nat.add_zero] at w1 w2
    rw [addPointsCode]
    split
    · refine ⟨hr p, fun v => ?_⟩
      split
      · refine ⟨hwr _ w2, fun v => ?_⟩
        split
        · refine ⟨hwr _ w1, fun v => ⟨w2, w1, ih (sp + 1) (kp + 1) fun j hj => ?_⟩⟩
          have := hw (j + 1) (by simpa using hj)
          rwa [show sp + (j + 1) = sp + 1 + j by omega, show kp + (j + 1) = kp + 1 + j by omega] at this
        · trivial
      · trivial
    · trivial

/-! ### Blocks of a reduction operation -/

theorem addBlock_run (add : K → K → K) (len : ℕ) (pos : ℤ) (m : OpCell → K) :
    (addBlock add pos len).run m = some ((), fun a => match a with
      | .inout i => if pos ≤ i ∧ i < pos + len then add (m (.inout i)) (m (.arg i)) else m (.inout i)
      | .arg i => m (.arg i)) := by
  induction len generalizing pos m with
  | zero =>
    simp only [addBlock, Code.run]
    congr 2
    funext a
    cases a with
    | inout i =>
      simp only
      rw [if_neg (by simp only [Nat.cast_zero]; omega)]
    | arg i => rfl
  | succ n ih =>
    simp only [addBlock, Code.run]
    rw [ih]
    congr 2
    funext a
    cases a with
    | inout i =>
      by_cases e : i = pos
      · subst e
        simp only [Function.update_self]
        rw [if_neg (by omega), if_pos (by omega)]
      · have e' : OpCell.inout i ≠ OpCell.inout pos := fun h => e (OpCell.inout.inj h)
        have e'' : OpCell.arg i ≠ OpCell.inout pos := fun h => by cases h
        simp only [Function.update_of_ne e', Function.update_of_ne e'']
        by_cases h : pos + 1 ≤ i ∧ i < pos + 1 + n
        · rw [if_pos h, if_pos (by push_cast; omega)]
        · rw [if_neg h, if_neg (by push_cast; omega)]
    | arg i =>
      have e'' : OpCell.arg i ≠ OpCell.inout pos := fun h => by cases h
      simp only [Function.update_of_ne e'']

theorem within_addBlock (add : K → K → K) (w r : OpCell → Prop) (hr : ∀ i, r (.arg i))
    (hwr : ∀ a, w a → r a) (pos : ℤ) (len : ℕ) (hw : ∀ i, pos ≤ i → i < pos + len → w (.inout i)) :
    Within w r (addBlock add pos len) := by
  induction len generalizing pos with
  | zero => trivial
  | succ n ih =>
    have h0 := hw pos (le_refl _) (by push_cast; omega)
    exact ⟨hwr _ h0, fun _ => ⟨hr _, fun _ => ⟨h0, ih (pos + 1) fun i h1 h2 => hw i (by omega) (by push_cast; omega)⟩⟩⟩

theorem addBlocks_run (add : K → K → K) (bs : List (ℤ × ℕ))
    (hd : bs.Pairwise fun b c => b.1 + (b.2 : ℤ) ≤ c.1 ∨ c.1 + (c.2 : ℤ) ≤ b.1) (m : OpCell → K) :
    (loopCode (fun b : ℤ × ℕ => addBlock add b.1 b.2) bs).run m = some ((), fun a => match a with
      | .inout i => if ∃ b ∈ bs, b.1 ≤ i ∧ i < b.1 + b.2 then add (m (.inout i)) (m (.arg i)) else m (.inout i)
      | .arg i => m (.arg i)) := by
  induction bs generalizing m with
  | nil =>
    simp only [loopCode, Code.run]
    congr 2
    funext a
    cases a <;> simp
  | cons b bs ih =>
    rw [List.pairwise_cons] at hd
    rw [loopCode, run_bind, addBlock_run]
    simp only [Option.bind_some]
    rw [ih hd.2]
    congr 2
    funext a
    cases a with
    | arg i => rfl
    | inout i =>
      simp only [List.mem_cons, exists_eq_or_imp]
      by_cases h1 : b.1 ≤ i ∧ i < b.1 + b.2
      · have h2 : ¬ ∃ c ∈ bs, c.1 ≤ i ∧ i < c.1 + c.2 := by
          rintro ⟨c, hc, h3, h4⟩
          rcases hd.1 c hc with h | h <;> omega
        rw [if_neg h2, if_pos h1, if_pos (Or.inl h1)]
      · rw [if_neg h1]
        by_cases h2 : ∃ c ∈ bs, c.1 ≤ i ∧ i < c.1 + c.2
        · rw [if_pos h2, if_pos (Or.inr h2)]
        · rw [if_neg h2, if_neg (by rintro (h | h); exact h1 h; exact h2 h)]

/-! ### Poles -/

/-- Body of the loop over the poles if the result is `F p loc`. -/
def poleBody (len stride n : ℕ) (F : ℕ → List K → ℕ → K) (p : ℕ × ℕ) : Code ℕ K Unit :=
  (readAll len ((List.range n).map fun i => p.1 * (stride * n) + p.2 + i * stride) []).bind fun loc =>
    writeAll len ((List.range n).reverse.map fun i =>
      (p.1 * (stride * n) + p.2 + i * stride, F (p.2 + p.1 * stride) loc i))

theorem same_readAll (len : ℕ) (ps : List ℕ) (acc : List K) {S : Type} {Q : S → Prop}
    (f : List K → Code ℕ K S) (b : List K → Code ℕ K Unit)
    (h : ∀ loc : List K, loc.length = acc.length + ps.length → Same Q (f loc) (b loc)) :
    Same Q ((readAll len ps acc).bind f) ((readAll len ps acc).bind b) := by
  induction ps generalizing acc with
  | nil => exact h acc (by simp)
  | cons p ps ih =>
    rw [readAll]
    split
    · refine .read _ _ _ fun v => ih (acc ++ [v]) fun loc hl => h loc ?_
      simp only [List.length_append, List.length_cons, List.length_nil] at hl ⊢
      omega
    · exact .fail

theorem same_pole (len stride n : ℕ) (T : (ℕ → K) → ℕ → List K → Option (Buf K × (ℕ → K)))
    (F : ℕ → List K → ℕ → K) (tmp : ℕ → K) (p : ℕ × ℕ)
    (hT : ∀ loc : List K, loc.length = n → ∃ m t, T tmp (p.2 + p.1 * stride) loc = some (m, t) ∧ n ≤ m.len ∧
      ∀ i < n, m.val i = F (p.2 + p.1 * stride) loc i) :
    Same (fun _ => True) (poleIter len stride n T tmp p) (poleBody len stride n F p) := by
  unfold poleIter poleBody
  apply same_readAll
  intro loc hl
  obtain ⟨m, t, e1, e2, e3⟩ := hT loc (by simpa using hl)
  rw [e1]
  simp only [Code.ofOption, Code.bind]
  rw [mapM_map_some (f' := fun i => (p.1 * (stride * n) + p.2 + i * stride, F (p.2 + p.1 * stride) loc i))]
  · simp only [Code.bind]
    exact same_done _ _ trivial
  · intro i hi
    have hi' : i < n := by simpa using hi
    simp only [Buf.get?]
    rw [if_pos (by omega), Option.map_some, e3 i hi']

theorem readAll_run (len : ℕ) (ps : List ℕ) (acc : List K) (m : ℕ → K) (h : ∀ p ∈ ps, p < len) :
    (readAll len ps acc).run m = some (acc ++ ps.map m, m) := by
  induction ps generalizing acc with
  | nil => simp [readAll, Code.run]
  | cons p ps ih =>
    rw [readAll, if_pos (h p (by simp)), Code.run, ih _ fun q hq => h q (by simp [hq])]
    simp

theorem writeAll_run (len : ℕ) (ps : List (ℕ × K)) (m : ℕ → K) (h : ∀ p ∈ ps, p.1 < len)
    (hnd : (ps.map (·.1)).Nodup) : ∃ m', (writeAll len ps).run m = some ((), m') ∧
      (∀ p ∈ ps, m' p.1 = p.2) ∧ ∀ q, (∀ p ∈ ps, q ≠ p.1) → m' q = m q := by
  induction ps generalizing m with
  | nil => exact ⟨m, rfl, by simp, fun _ _ => rfl⟩
  | cons p ps ih =>
    rw [List.map_cons, List.nodup_cons] at hnd
    obtain ⟨m', e1, e2, e3⟩ := ih (Function.update m p.1 p.2) (fun q hq => h q (by simp [hq])) hnd.2
    refine ⟨m', ?_, ?_, ?_⟩
    · rw [writeAll, if_pos (h p (by simp)), Code.run, e1]
    · intro q hq
      rcases List.mem_cons.1 hq with rfl | hq
      · rw [e3 q.1 fun p' hp' e => hnd.1 (by rw [e]; exact List.mem_map_of_mem hp'), Function.update_self]
      · exact e2 q hq
    · intro q hq
      rw [e3 q fun p' hp' => hq p' (by simp [hp']), Function.update_of_ne (hq p (by simp))]

theorem poleBody_run (stride n : ℕ) (hs : 0 < stride) (T : ℕ → Buf K → Option (Buf K))
    (F : ℕ → List K → ℕ → K) (d d' : Buf K) (p : ℕ × ℕ)
    (hb : ∀ i < n, p.1 * (stride * n) + p.2 + i * stride < d.len)
    (hT : ∀ B : Buf K, B.len = n → ∃ m, T (p.2 + p.1 * stride) B = some m ∧ n ≤ m.len ∧
      ∀ i < n, m.val i = F (p.2 + p.1 * stride) ((List.range n).map B.val) i)
    (h : poleStep stride n T d p = some d') :
    (poleBody d.len stride n F p).run d.val = some ((), d'.val) ∧ d'.len = d.len := by
  unfold poleStep at h
  obtain ⟨m, e1, e2, e3⟩ := hT ⟨n, fun i => d.val (p.1 * (stride * n) + p.2 + i * stride)⟩ rfl
  simp only at h
  rw [e1, Option.bind_some] at h
  obtain ⟨r, f1, f2, f3, f4⟩ := write_pole stride (p.1 * (stride * n) + p.2) hs m d n e2 hb
  rw [f1] at h
  obtain rfl := Option.some.inj h
  refine ⟨?_, f2⟩
  unfold poleBody
  rw [run_bind, readAll_run _ _ _ _ (by
    intro q hq
    obtain ⟨i, hi, rfl⟩ := List.mem_map.1 hq
    exact hb i (List.mem_range.1 hi))]
  simp only [Option.bind_some, List.nil_append, List.map_map]
  obtain ⟨m', g1, g2, g3⟩ := writeAll_run d.len ((List.range n).reverse.map fun i =>
      (p.1 * (stride * n) + p.2 + i * stride, F (p.2 + p.1 * stride)
        ((List.range n).map (d.val ∘ fun i => p.1 * (stride * n) + p.2 + i * stride)) i)) d.val (by
    intro q hq
    obtain ⟨i, hi, rfl⟩ := List.mem_map.1 hq
    exact hb i (by simpa using hi)) (by
    rw [List.map_map]
    refine List.Nodup.map ?_ (List.nodup_reverse.2 List.nodup_range)
    intro i j e
    exact Nat.eq_of_mul_eq_mul_right hs (show i * stride = j * stride by simp only [Function.comp] at e; omega))
  rw [g1]
  congr 2
  funext q
  by_cases hq : ∃ i < n, q = p.1 * (stride * n) + p.2 + i * stride
  · obtain ⟨i, hi, rfl⟩ := hq
    rw [f3 i hi, e3 i hi]
    exact g2 _ (List.mem_map_of_mem (by simpa using hi))
  · rw [f4 q fun i hi e => hq ⟨i, hi, e⟩]
    refine g3 q ?_
    intro p' hp' e
    obtain ⟨i, hi, rfl⟩ := List.mem_map.1 hp'
    exact hq ⟨i, by simpa using hi, e⟩

theorem poles_run (stride n N : ℕ) (hs : 0 < stride) (T : ℕ → Buf K → Option (Buf K))
    (F : ℕ → List K → ℕ → K) (ps : List (ℕ × ℕ)) (hps : ∀ p ∈ ps, p.1 < N ∧ p.2 < stride) (d d' : Buf K)
    (hd : d.len = N * (stride * n))
    (hT : ∀ p ∈ ps, ∀ B : Buf K, B.len = n → ∃ m, T (p.2 + p.1 * stride) B = some m ∧ n ≤ m.len ∧
      ∀ i < n, m.val i = F (p.2 + p.1 * stride) ((List.range n).map B.val) i)
    (h : ps.foldlM (poleStep stride n T) d = some d') :
    (loopCode (poleBody d.len stride n F) ps).run d.val = some ((), d'.val) := by
  induction ps generalizing d with
  | nil =>
    obtain rfl := Option.some.inj h
    rfl
  | cons p ps ih =>
    rw [List.foldlM_cons] at h
    cases h1 : poleStep stride n T d p with
    | none => rw [h1] at h; cases h
    | some d1 =>
      rw [h1] at h
      obtain ⟨b1, b2⟩ := hps p (by simp)
      obtain ⟨e1, e2⟩ := poleBody_run stride n hs T F d d1 p (by
        intro i hi
        rw [hd]
        have r1 : (p.1 + 1) * (stride * n) ≤ N * (stride * n) := Nat.mul_le_mul_right _ b1
        have r2 : (i + 1) * stride ≤ n * stride := Nat.mul_le_mul_right _ hi
        nlinarith) (hT p (by simp)) h1
      have := ih (fun q hq => hps q (by simp [hq])) d1 (by rw [e2, hd]) (fun q hq => hT q (by simp [hq])) h
      rw [e2] at this
      rw [loopCode, run_bind, e1]
      exact this

theorem within_readAll {S : Type} (w r : ℕ → Prop) (len : ℕ) (ps : List ℕ) (acc : List K)
    (f : List K → Code ℕ K S) (hr : ∀ p ∈ ps, r p) (h : ∀ loc, Within w r (f loc)) :
    Within w r ((readAll len ps acc).bind f) := by
  induction ps generalizing acc with
  | nil => exact h acc
  | cons p ps ih =>
    rw [readAll]
    split
    · exact ⟨hr p (by simp), fun v => ih _ fun q hq => hr q (by simp [hq])⟩
    · trivial

theorem within_writeAll (w r : ℕ → Prop) (len : ℕ) (ps : List (ℕ × K)) (hw : ∀ p ∈ ps, w p.1) :
    Within w r (writeAll len ps) := by
  induction ps with
  | nil => trivial
  | cons p ps ih =>
    rw [writeAll]
    split
    · exact ⟨hw p (by simp), ih fun q hq => hw q (by simp [hq])⟩
    · trivial

theorem parallel_poles (stride n N : ℕ) (hs : 0 < stride) (T : ℕ → Buf K → Option (Buf K))
    (T' : (ℕ → K) → ℕ → List K → Option (Buf K × (ℕ → K))) (F : ℕ → List K → ℕ → K)
    (all : List (ℕ × ℕ)) (hnd : all.Nodup) (hall : ∀ p ∈ all, p.1 < N ∧ p.2 < stride) (d d' : Buf K)
    (hd : d.len = N * (stride * n))
    (hT : ∀ p ∈ all, ∀ B : Buf K, B.len = n → ∃ m, T (p.2 + p.1 * stride) B = some m ∧ n ≤ m.len ∧
      ∀ i < n, m.val i = F (p.2 + p.1 * stride) ((List.range n).map B.val) i)
    (hT' : ∀ p ∈ all, ∀ (tmp : ℕ → K) (loc : List K), loc.length = n →
      ∃ m t, T' tmp (p.2 + p.1 * stride) loc = some (m, t) ∧ n ≤ m.len ∧
        ∀ i < n, m.val i = F (p.2 + p.1 * stride) loc i)
    (h : all.foldlM (poleStep stride n T) d = some d') (parts : List ((ℕ → K) × List (ℕ × ℕ)))
    (hp : (parts.map (·.2)).flatten.Perm all) :
    RunsTo (parts.map fun q => (threadLoop (poleIter d.len stride n T') q.1 q.2).void) d.val d'.val := by
  have e : (parts.map fun q => (threadLoop (poleIter d.len stride n T') q.1 q.2).void) =
      (parts.map (·.2)).map (loopCode (poleBody d.len stride n F)) := by
    rw [List.map_map]
    apply List.map_congr_left
    intro q hq
    have hsub : ∀ p ∈ q.2, p ∈ all := by
      intro p hpq
      rw [← hp.mem_iff, List.mem_flatten]
      exact ⟨q.2, List.mem_map_of_mem hq, hpq⟩
    refine (threadLoop_void (fun _ xs => ∀ p ∈ xs, p ∈ all) ?_ q.2 q.1 hsub).void
    intro tmp p ps hps
    have := same_pole d.len stride n T' F tmp p fun loc hl => hT' p (hps p (by simp)) tmp loc hl
    refine same_weaken this ?_
    intro _ _ p' hp'
    exact hps p' (by simp [hp'])
  rw [e]
  refine parts_run hnd (W := fun p q => ∃ i < n, q = p.1 * (stride * n) + p.2 + i * stride) ?_ ?_ _ hp _ _
    (poles_run stride n N hs T F all hall d d' hd hT h)
  · rintro x hx y hy hne a ⟨i, hi, rfl⟩ ⟨j, hj, e⟩
    obtain ⟨q1, q2, -⟩ := pole_decode (hall x hx).2 hi (hall y hy).2 hj e
    exact hne (Prod.ext q1 q2)
  · intro x hx
    unfold poleBody
    refine within_readAll _ _ _ _ _ _ ?_ fun loc => within_writeAll _ _ _ _ ?_
    · rintro q hq y hy hne ⟨j, hj, e⟩
      obtain ⟨i, hi, rfl⟩ := List.mem_map.1 hq
      obtain ⟨q1, q2, -⟩ := pole_decode (hall x hx).2 (List.mem_range.1 hi) (hall y hy).2 hj e
      exact hne (Prod.ext q1.symm q2.symm)
    · intro q hq
      obtain ⟨i, hi, rfl⟩ := List.mem_map.1 hq
      exact ⟨i, by simpa using hi, rfl⟩

end Verif.Threads
