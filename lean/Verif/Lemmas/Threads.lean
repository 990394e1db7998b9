import Verif.Model.Threads
import Verif.Lemmas.Runs
import Mathlib.Data.List.Perm.Basic
import Mathlib.Algebra.BigOperators.Group.List.Basic
import Mathlib.Tactic.Linarith

/-!
# Threads that write to different elements
-/

namespace Verif.Threads

variable {A V R S : Type} [DecidableEq A]

/-- The code writes elements of `w` and reads elements of `r` only. -/
def Within (w r : A → Prop) : Code A V R → Prop
  | .done _ => True
  | .read a k => r a ∧ ∀ v, Within w r (k v)
  | .write a _ k => w a ∧ Within w r k
  | .fail => True

omit [DecidableEq A] in
theorem Within.mono {w r w' r' : A → Prop} (hw : ∀ a, w a → w' a) (hr : ∀ a, r a → r' a) {c : Code A V R}
    (h : Within w r c) : Within w' r' c := by
  induction c with
  | done r => trivial
  | read a k ih => exact ⟨hr a h.1, fun v => ih v (h.2 v)⟩
  | write a v k ih => exact ⟨hw a h.1, ih h.2⟩
  | fail => trivial

omit [DecidableEq A] in
theorem Within.bind {w r : A → Prop} {c : Code A V R} {f : R → Code A V S} (h : Within w r c)
    (hf : ∀ x, Within w r (f x)) : Within w r (c.bind f) := by
  induction c with
  | done x => exact hf x
  | read a k ih => exact ⟨h.1, fun v => ih v (h.2 v)⟩
  | write a v k ih => exact ⟨h.1, ih h.2⟩
  | fail => trivial

theorem run_bind (c : Code A V R) (f : R → Code A V S) (m : A → V) :
    (c.bind f).run m = (c.run m).bind fun x => (f x.1).run x.2 := by
  induction c generalizing m with
  | done x => rfl
  | read a k ih => exact ih _ _
  | write a v k ih => exact ih _
  | fail => rfl

/-- Running the code takes `n` steps and gives `f`. -/
inductive Takes : Code A V Unit → (A → V) → ℕ → (A → V) → Prop where
  | done (m) : Takes (.done ()) m 0 m
  | read (a k m n f) : Takes (k (m a)) m n f → Takes (.read a k) m (n + 1) f
  | write (a v k m n f) : Takes k (Function.update m a v) n f → Takes (.write a v k) m (n + 1) f

theorem takes_of_run {c : Code A V Unit} {m f : A → V} (h : c.run m = some ((), f)) : ∃ n, Takes c m n f := by
  induction c generalizing m with
  | done x =>
    obtain ⟨-, rfl⟩ := Prod.mk.inj (Option.some.inj h)
    exact ⟨0, .done _⟩
  | read a k ih =>
    obtain ⟨n, hn⟩ := ih _ h
    exact ⟨n + 1, .read _ _ _ _ _ hn⟩
  | write a v k ih =>
    obtain ⟨n, hn⟩ := ih h
    exact ⟨n + 1, .write _ _ _ _ _ _ hn⟩
  | fail => cases h

theorem Takes.frame {w r : A → Prop} {c : Code A V Unit} {m f : A → V} {n : ℕ} (h : Takes c m n f)
    (hc : Within w r c) (a : A) (ha : ¬ w a) : f a = m a := by
  induction h with
  | done m => rfl
  | read b k m n f _ ih => exact ih (hc.2 _)
  | write b v k m n f _ ih =>
    rw [ih hc.2, Function.update_of_ne]
    rintro rfl
    exact ha hc.1

/-- What happens outside of the elements that the code reads makes no difference. -/
theorem Takes.congr {w r : A → Prop} {c : Code A V Unit} {m f : A → V} {n : ℕ}
    (h : Takes c m n f) (hc : Within w r c) (m' : A → V) (hm : ∀ a, r a → m' a = m a) :
    ∃ f', Takes c m' n f' ∧ ∀ a, r a → f' a = f a := by
  induction h generalizing m' with
  | done m => exact ⟨m', .done _, hm⟩
  | read b k m n f _ ih =>
    obtain ⟨f', h1, h2⟩ := ih (hc.2 _) m' hm
    exact ⟨f', .read _ _ _ _ _ (by rw [hm b hc.1]; exact h1), h2⟩
  | write b v k m n f _ ih =>
    obtain ⟨f', h1, h2⟩ := ih hc.2 (Function.update m' b v) (by
      intro a ha
      by_cases e : a = b
      · subst e; simp
      · simp [Function.update_of_ne e, hm a ha])
    exact ⟨f', .write _ _ _ _ _ _ h1, h2⟩

theorem Takes.run {c : Code A V Unit} {m f : A → V} {n : ℕ} (h : Takes c m n f) : c.run m = some ((), f) := by
  induction h with
  | done m => rfl
  | read b k m n f _ ih => exact ih
  | write b v k m n f _ ih => exact ih

/-! ### Several threads -/

/-- Each thread `i` writes elements of `w i` and reads elements that no other thread writes; run alone, from
now on, it takes `n i` steps, and leaves the values `F` in the elements of `w i`. -/
structure Inv (w : ℕ → A → Prop) (F : A → V) (n : ℕ → ℕ) (x : Team A V) : Prop where
  disj : ∀ i < x.threads.length, ∀ j < x.threads.length, i ≠ j → ∀ a, w i a → ¬ w j a
  within : ∀ i c, x.threads[i]? = some c →
    Within (w i) (fun a => ∀ j < x.threads.length, j ≠ i → ¬ w j a) c
  takes : ∀ i c, x.threads[i]? = some c → ∃ f, Takes c x.mem (n i) f ∧ ∀ a, w i a → f a = F a
  rest : ∀ a, (∀ i < x.threads.length, ¬ w i a) → x.mem a = F a

theorem Inv.not_racy {w : ℕ → A → Prop} {F : A → V} {n : ℕ → ℕ} {x : Team A V} (h : Inv w F n x) :
    ¬ x.Racy := by
  rintro ⟨i, j, c, d, a, v, u, hij, hc, hd, ac, ad, hvu⟩
  have hi := (List.getElem?_eq_some_iff.1 hc).1
  have hj := (List.getElem?_eq_some_iff.1 hd).1
  have wc := h.within i c hc
  have wd := h.within j d hd
  have key : ∀ i j, i < x.threads.length → j < x.threads.length → i ≠ j → ∀ c d : Code A V Unit,
      Within (w i) (fun a => ∀ j < x.threads.length, j ≠ i → ¬ w j a) c →
      Within (w j) (fun a => ∀ k < x.threads.length, k ≠ j → ¬ w k a) d → ∀ a u,
      c.access = some (a, true) → d.access = some (a, u) → False := by
    intro i j hi hj hij c d wc wd a u ac ad
    have h1 : w i a := by
      cases c with
      | done r => cases ac
      | read b k => cases ac
      | write b v k =>
        obtain rfl := (Prod.mk.inj (Option.some.inj ac)).1
        exact wc.1
      | fail => cases ac
    cases d with
    | done r => cases ad
    | read b k =>
      obtain rfl := (Prod.mk.inj (Option.some.inj ad)).1
      exact wd.1 i hi hij h1
    | write b v k =>
      obtain rfl := (Prod.mk.inj (Option.some.inj ad)).1
      exact h.disj i hi j hj hij b h1 wd.1
    | fail => cases ad
  rcases hvu with rfl | rfl
  · exact key i j hi hj hij c d wc wd a u ac ad
  · exact key j i hj hi hij.symm d c wd wc a v ad ac

theorem Inv.step {w : ℕ → A → Prop} {F : A → V} {n : ℕ → ℕ} {x y : Team A V} (h : Inv w F n x)
    (hs : Step x y) : ∃ i < x.threads.length, 0 < n i ∧ y.threads.length = x.threads.length ∧
      Inv w F (Function.update n i (n i - 1)) y := by
  cases hs with
  | read i a k ts m hi =>
    have hlt := (List.getElem?_eq_some_iff.1 hi).1
    have hw := h.within i _ hi
    obtain ⟨f, ht, hf⟩ := h.takes i _ hi
    generalize hN : n i = N at ht
    cases ht with
    | read _ _ _ N f ht =>
      refine ⟨i, hlt, by omega, by simp, ?_, ?_, ?_, ?_⟩
      · intro i' hi' j' hj'
        exact h.disj i' (by simpa using hi') j' (by simpa using hj')
      · intro j c hc
        simp only [List.length_set]
        by_cases e : j = i
        · subst e
          rw [List.getElem?_set_self hlt] at hc
          obtain rfl := Option.some.inj hc
          exact hw.2 _
        · rw [List.getElem?_set_ne (Ne.symm e)] at hc
          exact h.within j c hc
      · intro j c hc
        by_cases e : j = i
        · subst e
          rw [List.getElem?_set_self hlt] at hc
          obtain rfl := Option.some.inj hc
          refine ⟨f, ?_, hf⟩
          rw [Function.update_self, hN]
          exact ht
        · rw [List.getElem?_set_ne (Ne.symm e)] at hc
          rw [Function.update_of_ne e]
          exact h.takes j c hc
      · intro b hb
        exact h.rest b fun j hj => hb j (by simpa using hj)
  | write i a v k ts m hi =>
    have hlt := (List.getElem?_eq_some_iff.1 hi).1
    have hw := h.within i _ hi
    obtain ⟨f, ht, hf⟩ := h.takes i _ hi
    generalize hN : n i = N at ht
    cases ht with
    | write _ _ _ _ N f ht =>
      refine ⟨i, hlt, by omega, by simp, ?_, ?_, ?_, ?_⟩
      · intro i' hi' j' hj'
        exact h.disj i' (by simpa using hi') j' (by simpa using hj')
      · intro j c hc
        simp only [List.length_set]
        by_cases e : j = i
        · subst e
          rw [List.getElem?_set_self hlt] at hc
          obtain rfl := Option.some.inj hc
          exact hw.2
        · rw [List.getElem?_set_ne (Ne.symm e)] at hc
          exact h.within j c hc
      · intro j c hc
        by_cases e : j = i
        · subst e
          rw [List.getElem?_set_self hlt] at hc
          obtain rfl := Option.some.inj hc
          refine ⟨f, ?_, hf⟩
          rw [Function.update_self, hN]
          exact ht
        · rw [List.getElem?_set_ne (Ne.symm e)] at hc
          rw [Function.update_of_ne e]
          obtain ⟨g, hg, hgF⟩ := h.takes j c hc
          have hj := (List.getElem?_eq_some_iff.1 hc).1
          have hwr : ∀ b, w j b → ∀ j' < ts.length, j' ≠ j → ¬ w j' b :=
            fun b hb j' hj' hne => h.disj j hj j' hj' (Ne.symm hne) b hb
          obtain ⟨g', hg', hgg⟩ := hg.congr (h.within j c hc) (Function.update m a v) (by
            intro b hb
            rw [Function.update_of_ne]
            rintro rfl
            exact hb i hlt (Ne.symm e) hw.1)
          exact ⟨g', hg', fun b hb => (hgg b (hwr b hb)).trans (hgF b hb)⟩
      · intro b hb
        show Function.update m a v b = F b
        rw [Function.update_of_ne]
        · exact h.rest b fun j hj => hb j (by simpa using hj)
        · rintro rfl
          exact hb i (by simpa using hlt) hw.1

omit [DecidableEq A] in
theorem sum_update_lt (n : ℕ → ℕ) (i L : ℕ) (hi : i < L) (h0 : 0 < n i) :
    ((List.range L).map (Function.update n i (n i - 1))).sum < ((List.range L).map n).sum := by
  induction L with
  | zero => omega
  | succ L ih =>
    rw [List.range_succ, List.map_append, List.map_append, List.sum_append, List.sum_append]
    simp only [List.map_cons, List.map_nil, List.sum_cons, List.sum_nil, add_zero]
    by_cases e : i = L
    · subst e
      have : (List.range i).map (Function.update n i (n i - 1)) = (List.range i).map n := by
        apply List.map_congr_left
        intro j hj
        rw [Function.update_of_ne]
        have := List.mem_range.1 hj
        omega
      rw [this, Function.update_self]
      omega
    · rw [Function.update_of_ne (Ne.symm e)]
      have := ih (by omega)
      omega

theorem Inv.inevitable {w : ℕ → A → Prop} {F : A → V} {n : ℕ → ℕ} {x : Team A V} (h : Inv w F n x) :
    Inevitable Step (fun y : Team A V => y.Done ∧ y.mem = F) x := by
  generalize hN : ((List.range x.threads.length).map n).sum = N
  induction N using Nat.strong_induction_on generalizing x n with
  | _ N ih =>
    by_cases hex : ∃ y, Step x y
    · refine .step x hex fun y hy => ?_
      obtain ⟨i, hi, h0, hl, hInv⟩ := h.step hy
      refine ih _ ?_ hInv rfl
      rw [hl, ← hN]
      exact sum_update_lt n i _ hi h0
    · have hdone : x.Done := by
        intro c hc
        obtain ⟨i, hi, rfl⟩ := List.mem_iff_getElem.1 hc
        have hg : x.threads[i]? = some x.threads[i] := List.getElem?_eq_getElem hi
        obtain ⟨f, ht, -⟩ := h.takes i _ hg
        revert hg
        generalize x.threads[i] = c at ht
        intro hg
        generalize n i = N at ht
        cases ht with
        | done => rfl
        | read a k => exact absurd ⟨_, Step.read i a k x.threads x.mem hg⟩ hex
        | write a v k => exact absurd ⟨_, Step.write i a v k x.threads x.mem hg⟩ hex
      refine .here x ⟨hdone, ?_⟩ fun y hy => hex ⟨y, hy⟩
      funext a
      by_cases ha : ∃ i < x.threads.length, w i a
      · obtain ⟨i, hi, hwa⟩ := ha
        have hg : x.threads[i]? = some x.threads[i] := List.getElem?_eq_getElem hi
        obtain ⟨f, ht, hf⟩ := h.takes i _ hg
        rw [hdone _ (List.getElem_mem hi)] at ht
        generalize n i = N at ht
        cases ht
        exact hf a hwa
      · exact h.rest a fun i hi hwa => ha ⟨i, hi, hwa⟩

theorem Inv.reaches {w : ℕ → A → Prop} {F : A → V} {n : ℕ → ℕ} {x y : Team A V} (h : Inv w F n x)
    (hr : Reaches Step x y) : ∃ n', Inv w F n' y := by
  induction hr generalizing n with
  | refl x => exact ⟨n, h⟩
  | tail x y z hxy _ ih =>
    obtain ⟨i, -, -, -, hInv⟩ := h.step hxy
    exact ih hInv

/-! ### Loops -/

/-- The iterations `xs`, one after the other. -/
def loopCode {ι : Type} (body : ι → Code A V Unit) : List ι → Code A V Unit
  | [] => .done ()
  | x :: xs => (body x).bind fun _ => loopCode body xs

theorem loop_takes {ι : Type} {body : ι → Code A V Unit} {all : List ι} {W : ι → A → Prop}
    (hW : ∀ x ∈ all, ∀ y ∈ all, x ≠ y → ∀ a, W x a → ¬ W y a)
    (hb : ∀ x ∈ all, Within (W x) (fun a => ∀ y ∈ all, y ≠ x → ¬ W y a) (body x)) (xs : List ι)
    (hnd : xs.Nodup) (hsub : ∀ x ∈ xs, x ∈ all) (m : A → V) (f : ι → A → V)
    (hf : ∀ x ∈ xs, (body x).run m = some ((), f x)) :
    ∃ m', (loopCode body xs).run m = some ((), m') ∧ (∀ x ∈ xs, ∀ a, W x a → m' a = f x a) ∧
      ∀ a, (∀ x ∈ xs, ¬ W x a) → m' a = m a := by
  induction xs generalizing m f with
  | nil => exact ⟨m, rfl, by simp, fun _ _ => rfl⟩
  | cons x xs ih =>
    rw [List.nodup_cons] at hnd
    have hx := hsub x (by simp)
    obtain ⟨n, ht⟩ := takes_of_run (hf x (by simp))
    have hframe : ∀ a, ¬ W x a → f x a = m a := fun a ha => ht.frame (hb x hx) a ha
    have hrest : ∀ y ∈ xs, ∃ g, (body y).run (f x) = some ((), g) ∧ ∀ a, W y a → g a = f y a := by
      intro y hy
      have hyx : y ≠ x := fun e => hnd.1 (e ▸ hy)
      have hya := hsub y (by simp [hy])
      obtain ⟨n', ht'⟩ := takes_of_run (hf y (by simp [hy]))
      have hwr : ∀ a, W y a → ∀ z ∈ all, z ≠ y → ¬ W z a := fun a ha z hz hzy => hW y hya z hz (Ne.symm hzy) a ha
      obtain ⟨g, hg1, hg2⟩ := ht'.congr (hb y hya) (f x)
        fun a ha => hframe a (ha x hx (Ne.symm hyx))
      exact ⟨g, hg1.run, fun a ha => hg2 a (hwr a ha)⟩
    classical
    let g : ι → A → V := fun y => if hy : y ∈ xs then (hrest y hy).choose else m
    have hg : ∀ y (hy : y ∈ xs), (body y).run (f x) = some ((), g y) ∧ ∀ a, W y a → g y a = f y a := by
      intro y hy
      simp only [g, dif_pos hy]
      exact (hrest y hy).choose_spec
    obtain ⟨m', e1, e2, e3⟩ := ih hnd.2 (fun y hy => hsub y (by simp [hy])) (f x) g
      fun y hy => (hg y hy).1
    refine ⟨m', ?_, ?_, ?_⟩
    · rw [loopCode, run_bind, hf x (by simp)]
      exact e1
    · intro y hy a ha
      rcases List.mem_cons.1 hy with rfl | hy
      · exact e3 a fun z hz => hW y hx z (hsub z (by simp [hz])) (fun e => hnd.1 (e ▸ hz)) a ha
      · rw [e2 y hy a ha, (hg y hy).2 a ha]
    · intro a ha
      rw [e3 a fun y hy => ha y (by simp [hy]), hframe a (ha x (by simp))]

theorem loop_parts {ι : Type} {body : ι → Code A V Unit} {all : List ι} {W : ι → A → Prop}
    (hW : ∀ x ∈ all, ∀ y ∈ all, x ≠ y → ∀ a, W x a → ¬ W y a)
    (hb : ∀ x ∈ all, Within (W x) (fun a => ∀ y ∈ all, y ≠ x → ¬ W y a) (body x)) (xs : List ι)
    (hnd : xs.Nodup) (hsub : ∀ x ∈ xs, x ∈ all) (m m' : A → V)
    (h : (loopCode body xs).run m = some ((), m')) :
    ∃ f : ι → A → V, ∀ x ∈ xs, (body x).run m = some ((), f x) := by
  induction xs generalizing m with
  | nil => exact ⟨fun _ => m, by simp⟩
  | cons x xs ih =>
    rw [List.nodup_cons] at hnd
    have hx := hsub x (by simp)
    rw [loopCode, run_bind] at h
    cases h1 : (body x).run m with
    | none => rw [h1] at h; cases h
    | some r =>
      obtain ⟨⟨⟩, f1⟩ := r
      rw [h1] at h
      obtain ⟨g, hg⟩ := ih hnd.2 (fun y hy => hsub y (by simp [hy])) f1 h
      obtain ⟨n, ht⟩ := takes_of_run h1
      have hframe : ∀ a, ¬ W x a → f1 a = m a := fun a ha => ht.frame (hb x hx) a ha
      have hrest : ∀ y ∈ xs, ∃ f, (body y).run m = some ((), f) := by
        intro y hy
        have hyx : y ≠ x := fun e => hnd.1 (e ▸ hy)
        have hya := hsub y (by simp [hy])
        obtain ⟨n', ht'⟩ := takes_of_run (hg y hy)
        have hwr : ∀ a, W y a → ∀ z ∈ all, z ≠ y → ¬ W z a :=
          fun a ha z hz hzy => hW y hya z hz (Ne.symm hzy) a ha
        obtain ⟨f, hf1, -⟩ := ht'.congr (hb y hya) m
          fun a ha => (hframe a (ha x hx (Ne.symm hyx))).symm
        exact ⟨f, hf1.run⟩
      classical
      refine ⟨fun y => if hy : y ∈ xs then (hrest y hy).choose else f1, fun y hy => ?_⟩
      rcases List.mem_cons.1 hy with rfl | hy
      · beta_reduce
        rw [dif_neg hnd.1]; exact h1
      · simp only [dif_pos hy]
        exact (hrest y hy).choose_spec

/-- Whatever the order of the steps, all threads arrive at the end, the memory is then `m'`, and there is never a data race. -/
def RunsTo (threads : List (Code A V Unit)) (m m' : A → V) : Prop :=
  Inevitable Step (fun y : Team A V => y.Done ∧ y.mem = m') ⟨threads, m⟩ ∧
    ∀ y, Reaches Step ⟨threads, m⟩ y → ¬ y.Racy

theorem parts_run {ι : Type} {body : ι → Code A V Unit} {all : List ι} {W : ι → A → Prop} (hnd : all.Nodup)
    (hW : ∀ x ∈ all, ∀ y ∈ all, x ≠ y → ∀ a, W x a → ¬ W y a)
    (hb : ∀ x ∈ all, Within (W x) (fun a => ∀ y ∈ all, y ≠ x → ¬ W y a) (body x)) (parts : List (List ι))
    (hp : parts.flatten.Perm all) (m m' : A → V) (h : (loopCode body all).run m = some ((), m')) :
    RunsTo (parts.map (loopCode body)) m m' := by
  have hfn : parts.flatten.Nodup := hp.nodup_iff.2 hnd
  have hmem : ∀ x, x ∈ all ↔ ∃ p ∈ parts, x ∈ p := by
    intro x
    rw [← hp.mem_iff, List.mem_flatten]
  obtain ⟨f, hf⟩ := loop_parts hW hb all hnd (fun _ h => h) m m' h
  obtain ⟨m'', e1, e2, e3⟩ := loop_takes hW hb all hnd (fun _ h => h) m f hf
  obtain rfl : m'' = m' := by
    rw [h] at e1
    exact (Prod.mk.inj (Option.some.inj e1)).2.symm
  have hpart : ∀ (i : ℕ) p, parts[i]? = some p → p.Nodup ∧ ∀ x ∈ p, x ∈ all := by
    intro i p hi
    have hmp := List.mem_of_getElem? hi
    exact ⟨(List.nodup_flatten.1 hfn).1 p hmp, fun x hx => (hmem x).2 ⟨p, hmp, hx⟩⟩
  have huniq : ∀ (i j : ℕ) p q, parts[i]? = some p → parts[j]? = some q → i ≠ j → ∀ x ∈ p, x ∉ q := by
    intro i j p q hi hj hij x hx hxq
    have hd := (List.nodup_flatten.1 hfn).2
    rw [List.pairwise_iff_getElem] at hd
    obtain ⟨hi', rfl⟩ := List.getElem?_eq_some_iff.1 hi
    obtain ⟨hj', rfl⟩ := List.getElem?_eq_some_iff.1 hj
    rcases Nat.lt_or_gt_of_ne hij with hlt | hlt
    · exact hd i j hi' hj' hlt hx hxq
    · exact hd j i hj' hi' hlt hxq hx
  let w : ℕ → A → Prop := fun i a => ∃ p, parts[i]? = some p ∧ ∃ x ∈ p, W x a
  have hwithin : ∀ (i : ℕ) p, parts[i]? = some p → ∀ xs, (∀ x ∈ xs, x ∈ p) →
      Within (w i) (fun a => ∀ j < (parts.map (loopCode body)).length, j ≠ i → ¬ w j a) (loopCode body xs) := by
    intro i p hi xs hxs
    induction xs with
    | nil => trivial
    | cons x xs ih =>
      rw [loopCode]
      refine Within.bind ?_ fun _ => ih fun y hy => hxs y (by simp [hy])
      have hx := hxs x (by simp)
      refine (hb x ((hpart i p hi).2 x hx)).mono (fun a ha => ⟨p, hi, x, hx, ha⟩) ?_
      rintro a ha j - hji ⟨q, hq, y, hy, hya⟩
      exact ha y ((hpart j q hq).2 y hy) (fun e => huniq i j p q hi hq (Ne.symm hji) x hx (e ▸ hy)) hya
  have hruns : ∀ (i : ℕ) p, parts[i]? = some p → ∃ n g, Takes (loopCode body p) m n g ∧ ∀ a, w i a → g a = m'' a := by
    intro i p hi
    obtain ⟨h1, h2⟩ := hpart i p hi
    obtain ⟨g, g1, g2, -⟩ := loop_takes hW hb p h1 h2 m f fun x hx => hf x (h2 x hx)
    obtain ⟨n, ht⟩ := takes_of_run g1
    refine ⟨n, g, ht, ?_⟩
    rintro a ⟨q, hq, x, hx, ha⟩
    rw [hi] at hq
    obtain rfl := Option.some.inj hq
    rw [g2 x hx a ha, e2 x (h2 x hx) a ha]
  classical
  let n : ℕ → ℕ := fun i => if hi : ∃ p, parts[i]? = some p then (hruns i hi.choose hi.choose_spec).choose else 0
  have hInv : Inv w m'' n ⟨parts.map (loopCode body), m⟩ := by
    refine ⟨?_, ?_, ?_, ?_⟩
    · rintro i - j - hij a ⟨p, hp1, x, hx, ha⟩ ⟨q, hq1, y, hy, ha'⟩
      exact hW x ((hpart i p hp1).2 x hx) y ((hpart j q hq1).2 y hy)
        (fun e => huniq i j p q hp1 hq1 hij x hx (e ▸ hy)) a ha ha'
    · intro i c hc
      simp only [List.getElem?_map, Option.map_eq_some_iff] at hc
      obtain ⟨p, hp1, rfl⟩ := hc
      exact hwithin i p hp1 p fun _ h => h
    · intro i c hc
      simp only [List.getElem?_map, Option.map_eq_some_iff] at hc
      obtain ⟨p, hp1, rfl⟩ := hc
      have hex : ∃ p, parts[i]? = some p := ⟨p, hp1⟩
      have hpe : hex.choose = p := Option.some.inj (hex.choose_spec.symm.trans hp1)
      have hs := (hruns i hex.choose hex.choose_spec).choose_spec
      obtain ⟨g, hg1, hg2⟩ := hs
      refine ⟨g, ?_, hg2⟩
      have hn : n i = (hruns i hex.choose hex.choose_spec).choose := dif_pos hex
      rw [hn]
      simp only [hpe] at hg1 ⊢
      exact hg1
    · intro a ha
      refine (e3 a fun x hx hxa => ?_).symm
      obtain ⟨p, hpm, hxp⟩ := (hmem x).1 hx
      obtain ⟨i, hi⟩ := List.getElem?_of_mem hpm
      have hil := (List.getElem?_eq_some_iff.1 hi).1
      exact ha i (by simpa using hil) ⟨p, hi, x, hxp, hxa⟩
  exact ⟨hInv.inevitable, fun y hy => (hInv.reaches hy).choose_spec.not_racy⟩

/-! ### Private variables -/

/-- The code `c` accesses the memory in the same way as `b`, and its results satisfy `Q`. -/
inductive Same (Q : S → Prop) : Code A V S → Code A V Unit → Prop where
  | done (s) : Q s → Same Q (.done s) (.done ())
  | read (a k k') : (∀ v, Same Q (k v) (k' v)) → Same Q (.read a k) (.read a k')
  | write (a v k k') : Same Q k k' → Same Q (.write a v k) (.write a v k')
  | fail : Same Q .fail .fail

omit [DecidableEq A] in
theorem Same.bind {Q : R → Prop} {Q' : S → Prop} {c : Code A V R} {b : Code A V Unit}
    {f : R → Code A V S} {b' : Code A V Unit} (h : Same Q c b) (hf : ∀ r, Q r → Same Q' (f r) b') :
    Same Q' (c.bind f) (b.bind fun _ => b') := by
  induction h with
  | done s hs => exact hf s hs
  | read a k k' _ ih => exact .read _ _ _ ih
  | write a v k k' _ ih => exact .write _ _ _ _ ih
  | fail => exact .fail

omit [DecidableEq A] in
theorem Same.void {Q : S → Prop} {c : Code A V S} {b : Code A V Unit} (h : Same Q c b) : c.void = b := by
  induction h with
  | done s hs => rfl
  | read a k k' _ ih => exact congrArg (Code.read a) (funext ih)
  | write a v k k' _ ih => exact congrArg (Code.write a v) ih
  | fail => rfl

omit [DecidableEq A] in
/-- If the iterations do the same whatever the private variables contain (as long as they satisfy `P`), then
the private variables do not matter. -/
theorem threadLoop_void {ι : Type} {iter : S → ι → Code A V S} {body : ι → Code A V Unit}
    (P : S → List ι → Prop)
    (h : ∀ s x xs, P s (x :: xs) → Same (fun s' => P s' xs) (iter s x) (body x)) (xs : List ι) (s : S)
    (hs : P s xs) : Same (fun _ => True) (threadLoop iter s xs) (loopCode body xs) := by
  induction xs generalizing s with
  | nil => exact .done _ trivial
  | cons x xs ih => exact (h s x xs hs).bind fun s' hs' => ih s' hs'

end Verif.Threads
