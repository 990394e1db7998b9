import Verif.Model.ThreadReduce
import Verif.Lemmas.Runs
import Verif.Lemmas.Combine
import Mathlib.Algebra.Order.BigOperators.Group.Finset

/-!
# Lemmas on reductions that are called by several threads
-/

namespace Verif.ThreadReduce

variable {K : Type}

/-- The members of communicator `c`. -/
def mem (comms : List (List ℕ × List ℕ)) (c : ℕ) : List ℕ := (comms.getD c ([], [])).1

/-- The datatypes of communicator `c` on process `g`. -/
def types (maxChunk : ℕ) (comms : List (List ℕ × List ℕ)) (S : ℕ → Group K) (g c : ℕ) : List (List ℕ) :=
  (getReductionDatatypes (S g).dsg maxChunk (comms.getD c ([], [])).2).getD []

/-- The number of datatypes of communicator `c`. -/
def num (maxChunk : ℕ) (comms : List (List ℕ × List ℕ)) (S : ℕ → Group K) (c : ℕ) : ℕ :=
  (((mem comms c).map fun g => types maxChunk comms S g c).headD []).length

/-- The elements of the `q.2`-th datatype of communicator `q.1` on process `g`. -/
def pos (maxChunk : ℕ) (comms : List (List ℕ × List ℕ)) (S : ℕ → Group K) (g : ℕ) (q : ℕ × ℕ) : List ℕ :=
  (types maxChunk comms S g q.1).getD q.2 []

/-- One reduction as a function: `P` are the elements on the members. -/
def op [AddCommMonoid K] (members : List ℕ) (P : ℕ → List ℕ) (S : ℕ → Group K) : ℕ → Group K :=
  fun g => (S g).setData ⟨(S g).dsg.data.len, fun i => if g ∈ members ∧ i ∈ P g then
    (members.map fun m => (S m).dsg.data.val ((P m).getD ((P g).idxOf i) 0)).sum else (S g).dsg.data.val i⟩

theorem allreduce_op [AddCommMonoid K] (members : List ℕ) (P : ℕ → List ℕ) (S S' : ℕ → Group K) :
    allreduceIndexed members (members.map P) S = some S' ↔
      (∀ m ∈ members, ∀ m' ∈ members, (P m).length = (P m').length) ∧ S' = op members P S := by
  have hf : (fun g => ((members.zip (members.map P)).lookup g).elim (S g) fun pos =>
      (S g).setData ⟨(S g).dsg.data.len, fun i => if i ∈ pos then
          ((members.zip (members.map P)).map fun m => (S m.1).dsg.data.val (m.2.getD (pos.idxOf i) 0)).sum
        else (S g).dsg.data.val i⟩) = op members P S := by
    funext g
    unfold op
    by_cases hg : g ∈ members
    · rw [lookup_zip_map, if_pos hg, Option.elim_some, zip_map_self]
      simp only [List.map_map, hg, true_and]
      rfl
    · rw [lookup_zip_map, if_neg hg, Option.elim_none]
      simp only [hg, false_and, if_false]
      rfl
  have hc : ((members.map P).all fun p => decide (p.length = ((members.map P).headD []).length)) = true ↔
      ∀ m ∈ members, ∀ m' ∈ members, (P m).length = (P m').length := by
    cases members with
    | nil => simp
    | cons a as =>
      simp only [List.map_cons, List.headD_cons, List.all_eq_true, decide_eq_true_eq]
      constructor
      · intro h m hm m' hm'
        rw [h (P m) (by rw [← List.map_cons]; exact List.mem_map.2 ⟨m, hm, rfl⟩),
          h (P m') (by rw [← List.map_cons]; exact List.mem_map.2 ⟨m', hm', rfl⟩)]
      · intro h p hp
        rw [← List.map_cons] at hp
        obtain ⟨m, hm, rfl⟩ := List.mem_map.1 hp
        exact h m hm a (by simp)
  unfold allreduceIndexed
  rw [hf]
  by_cases h : ∀ m ∈ members, ∀ m' ∈ members, (P m).length = (P m').length
  · rw [if_pos (hc.2 h), Option.some.injEq]
    exact ⟨fun e => ⟨h, e.symm⟩, fun e => e.2.symm⟩
  · rw [if_neg fun e => h (hc.1 e)]
    simp only [reduceCtorEq, false_iff, not_and]
    exact fun h' => absurd h' h

/-- Reductions on different elements commute. -/
theorem op_comm [AddCommMonoid K] (members members' : List ℕ) (P P' : ℕ → List ℕ) (S : ℕ → Group K)
    (h1 : ∀ m ∈ members, ∀ m' ∈ members, (P m).length = (P m').length)
    (h2 : ∀ m ∈ members', ∀ m' ∈ members', (P' m).length = (P' m').length)
    (hdis : ∀ g ∈ members, g ∈ members' → ∀ i ∈ P g, i ∉ P' g) :
    op members P (op members' P' S) = op members' P' (op members P S) := by
  have key : ∀ (members members' : List ℕ) (P P' : ℕ → List ℕ),
      (∀ m ∈ members, ∀ m' ∈ members, (P m).length = (P m').length) →
      (∀ g ∈ members, g ∈ members' → ∀ i ∈ P g, i ∉ P' g) → ∀ g ∈ members, ∀ i ∈ P g,
      (op members P (op members' P' S) g).dsg.data.val i = (op members P S g).dsg.data.val i := by
    intro members members' P P' h1 hdis g hg i hi
    simp only [op, Group.setData, hg, hi, and_self, if_true]
    congr 1
    apply List.map_congr_left
    intro m hm
    rw [if_neg]
    rintro ⟨hm', hi'⟩
    refine hdis m hm hm' _ ?_ hi'
    have hlt : (P g).idxOf i < (P m).length := by
      rw [h1 m hm g hg]
      exact List.idxOf_lt_length_iff.2 hi
    rw [List.getD_eq_getElem _ _ hlt]
    exact List.getElem_mem hlt
  have hmiss : ∀ (members : List ℕ) (P : ℕ → List ℕ) (S : ℕ → Group K) (g i : ℕ), ¬ (g ∈ members ∧ i ∈ P g) →
      (op members P S g).dsg.data.val i = (S g).dsg.data.val i := by
    intro members P S g i h
    simp only [op, Group.setData]
    rw [if_neg h]
  have hval : ∀ g i, (op members P (op members' P' S) g).dsg.data.val i =
      (op members' P' (op members P S) g).dsg.data.val i := by
    intro g i
    by_cases h : g ∈ members ∧ i ∈ P g
    · rw [key members members' P P' h1 hdis g h.1 i h.2, hmiss members' P']
      exact fun h' => hdis g h.1 h'.1 i h.2 h'.2
    · by_cases h' : g ∈ members' ∧ i ∈ P' g
      · rw [hmiss members P _ _ _ h, key members' members P' P h2 (fun g hg hg' i hi hi' =>
          hdis g hg' hg i hi' hi) g h'.1 i h'.2]
      · rw [hmiss _ _ _ _ _ h, hmiss _ _ _ _ _ h', hmiss _ _ _ _ _ h', hmiss _ _ _ _ _ h]
  funext g
  have e : ∀ (A B : Group K), A.tasks = B.tasks → A.dsg.data.len = B.dsg.data.len → (∀ i, A.dsg.data.val i = B.dsg.data.val i) →
      ({ A.dsg with data := B.dsg.data } : Dsg K) = B.dsg → A = B := by
    rintro ⟨⟨a1, a2, a3, ⟨a5, a6⟩, a4, a7, a8⟩, ta⟩ ⟨⟨b1, b2, b3, ⟨b5, b6⟩, b4, b7, b8⟩, tb⟩ h1 h2 h3 h4
    simp only [Dsg.mk.injEq, true_and] at h1 h2 h3 h4
    obtain rfl := h1
    obtain rfl := h2
    obtain rfl : a6 = b6 := funext h3
    simp_all
  exact e _ _ rfl rfl (hval g) rfl

theorem getReductionDatatypes_congr (d d' : Dsg K) (maxChunk : ℕ) (subs : List ℕ) (h1 : d.sizes = d'.sizes)
    (h2 : d.ptr = d'.ptr) (h3 : d.data.len = d'.data.len) :
    getReductionDatatypes d maxChunk subs = getReductionDatatypes d' maxChunk subs := by
  unfold getReductionDatatypes datatypePositions datatypeBlock
  rw [h1, h2, h3]

/-- Sizes and pointers are the same. -/
def SameMeta (S S' : ℕ → Group K) : Prop :=
  ∀ g, (S' g).dsg.sizes = (S g).dsg.sizes ∧ (S' g).dsg.ptr = (S g).dsg.ptr ∧
    (S' g).dsg.data.len = (S g).dsg.data.len

theorem SameMeta.datatypes {S S' : ℕ → Group K} (h : SameMeta S S') (maxChunk : ℕ) (subs : List ℕ) (g : ℕ) :
    getReductionDatatypes (S' g).dsg maxChunk subs = getReductionDatatypes (S g).dsg maxChunk subs :=
  getReductionDatatypes_congr _ _ _ _ (h g).1 (h g).2.1 (h g).2.2

theorem SameMeta.op [AddCommMonoid K] {S S' : ℕ → Group K} (h : SameMeta S S') (members : List ℕ)
    (P : ℕ → List ℕ) : SameMeta S (op members P S') := fun g => h g

/-- The calls on communicator `e` match. -/
structure Match (maxChunk : ℕ) (S : ℕ → Group K) (e : List ℕ × List ℕ) (D : ℕ → List (List ℕ)) (N : ℕ) : Prop where
  types : ∀ g ∈ e.1, getReductionDatatypes (S g).dsg maxChunk e.2 = some (D g)
  num : ∀ g ∈ e.1, (D g).length = N
  same : ∀ k < N, ∀ m ∈ e.1, ∀ m' ∈ e.1, ((D m).getD k []).length = ((D m').getD k []).length

theorem mapM_getD {α β : Type} (f : α → Option (List β)) : ∀ (l : List α) (r : List (List β)), l.mapM f = some r →
    r = l.map (fun a => (f a).getD []) ∧ ∀ a ∈ l, f a = some ((f a).getD []) := by
  intro l
  induction l with
  | nil =>
    intro r h
    rw [List.mapM_nil] at h
    cases h
    simp
  | cons a l ih =>
    intro r h
    rw [List.mapM_cons] at h
    cases ha : f a with
    | none => rw [ha] at h; cases h
    | some x =>
      cases hl : l.mapM f with
      | none => rw [ha, hl] at h; cases h
      | some y =>
        rw [ha, hl] at h
        cases h
        obtain ⟨h1, h2⟩ := ih y hl
        refine ⟨by rw [List.map_cons, ha, ← h1]; rfl, ?_⟩
        intro b hb
        rcases List.mem_cons.1 hb with rfl | hb
        · rw [ha]; rfl
        · exact h2 b hb

theorem foldlM_op [AddCommMonoid K] (members : List ℕ) (P : ℕ → ℕ → List ℕ) : ∀ (ks : List ℕ) (S S' : ℕ → Group K),
    ks.foldlM (fun S k => allreduceIndexed members (members.map (P k)) S) S = some S' →
    (∀ k ∈ ks, ∀ m ∈ members, ∀ m' ∈ members, (P k m).length = (P k m').length) ∧
      S' = ks.foldl (fun S k => op members (P k) S) S := by
  intro ks
  induction ks with
  | nil =>
    intro S S' h
    rw [List.foldlM_nil] at h
    cases h
    simp
  | cons k ks ih =>
    intro S S' h
    rw [List.foldlM_cons] at h
    cases ha : allreduceIndexed members (members.map (P k)) S with
    | none => rw [ha] at h; cases h
    | some S2 =>
      rw [ha] at h
      obtain ⟨h1, h2⟩ := ih S2 S' h
      obtain ⟨h3, rfl⟩ := (allreduce_op _ _ _ _).1 ha
      refine ⟨?_, h2⟩
      intro k' hk'
      rcases List.mem_cons.1 hk' with rfl | hk'
      · exact h3
      · exact h1 k' hk'

theorem foldl_meta [AddCommMonoid K] {S S' : ℕ → Group K} {ι : Type} (ks : List ι) (M : ι → List ℕ)
    (P : ι → ℕ → List ℕ) (h : SameMeta S S') :
    SameMeta S (ks.foldl (fun S k => ThreadReduce.op (M k) (P k) S) S') := by
  induction ks generalizing S' with
  | nil => exact h
  | cons k ks ih => exact ih (h.op _ _)

theorem subspaceReduce_match [AddCommMonoid K] (maxChunk : ℕ) (e : List ℕ × List ℕ) (S0 S S' : ℕ → Group K)
    (hm : SameMeta S0 S) (h : subspaceReduce maxChunk e.1 (fun _ => e.2) S = some S') :
    let D := fun g => (getReductionDatatypes (S0 g).dsg maxChunk e.2).getD []
    let N := ((e.1.map D).headD []).length
    Match maxChunk S0 e D N ∧
      S' = (List.range N).foldl (fun S k => op e.1 (fun g => (D g).getD k []) S) S := by
  intro D N
  unfold subspaceReduce at h
  simp only [hm.datatypes] at h
  cases hd : e.1.mapM (fun g => getReductionDatatypes (S0 g).dsg maxChunk e.2) with
  | none => rw [hd] at h; cases h
  | some dts =>
    obtain ⟨hd1, hd2⟩ := mapM_getD _ _ _ hd
    rw [hd] at h
    simp only [Option.bind_eq_bind, Option.bind_some] at h
    have hD : dts = e.1.map D := hd1
    subst hD
    by_cases hall : ((e.1.map D).all fun d => decide (d.length = ((e.1.map D).headD []).length)) = true
    · rw [if_pos hall] at h
      simp only [List.map_map] at h
      obtain ⟨h1, h2⟩ := foldlM_op e.1 (fun k g => (D g).getD k []) _ S S' h
      refine ⟨⟨hd2, ?_, ?_⟩, h2⟩
      · intro g hg
        rw [List.all_eq_true] at hall
        exact of_decide_eq_true (hall (D g) (List.mem_map.2 ⟨g, hg, rfl⟩))
      · exact fun k hk => h1 k (List.mem_range.2 hk)
    · rw [if_neg hall] at h
      cases h

/-- All reductions, communicator after communicator. -/
def allOps (maxChunk : ℕ) (comms : List (List ℕ × List ℕ)) (S : ℕ → Group K) : List (ℕ × ℕ) :=
  (List.range comms.length).flatMap fun c => (List.range (num maxChunk comms S c)).map fun k => (c, k)

/-- The reduction `q`. -/
def opOf [AddCommMonoid K] (maxChunk : ℕ) (comms : List (List ℕ × List ℕ)) (S0 S : ℕ → Group K) (q : ℕ × ℕ) :
    ℕ → Group K :=
  op (mem comms q.1) (fun g => pos maxChunk comms S0 g q) S

theorem seq_match [AddCommMonoid K] (maxChunk : ℕ) (comms : List (List ℕ × List ℕ)) (S0 S1 : ℕ → Group K)
    (h : comms.foldlM (fun S c => subspaceReduce maxChunk c.1 (fun _ => c.2) S) S0 = some S1) :
    (∀ c < comms.length, Match maxChunk S0 (comms.getD c ([], [])) (fun g => types maxChunk comms S0 g c)
      (num maxChunk comms S0 c)) ∧
      S1 = (allOps maxChunk comms S0).foldl (opOf maxChunk comms S0) S0 := by
  have key : ∀ (l : List (List ℕ × List ℕ)) (S S' : ℕ → Group K), SameMeta S0 S →
      l.foldlM (fun S c => subspaceReduce maxChunk c.1 (fun _ => c.2) S) S = some S' →
      (∀ e ∈ l, Match maxChunk S0 e (fun g => (getReductionDatatypes (S0 g).dsg maxChunk e.2).getD [])
        ((e.1.map fun g => (getReductionDatatypes (S0 g).dsg maxChunk e.2).getD []).headD []).length) ∧
      S' = l.foldl (fun S e => (List.range ((e.1.map fun g =>
        (getReductionDatatypes (S0 g).dsg maxChunk e.2).getD []).headD []).length).foldl (fun S k =>
          op e.1 (fun g => ((getReductionDatatypes (S0 g).dsg maxChunk e.2).getD []).getD k []) S) S) S := by
    intro l
    induction l with
    | nil =>
      intro S S' _ h
      rw [List.foldlM_nil] at h
      cases h
      simp
    | cons e l ih =>
      intro S S' hm h
      rw [List.foldlM_cons] at h
      cases ha : subspaceReduce maxChunk e.1 (fun _ => e.2) S with
      | none => rw [ha] at h; cases h
      | some S2 =>
        rw [ha] at h
        obtain ⟨h1, h2⟩ := subspaceReduce_match maxChunk e S0 S S2 hm ha
        obtain ⟨h3, h4⟩ := ih S2 S' (by
          rw [h2]
          exact foldl_meta _ (fun _ => e.1) (fun k g => ((getReductionDatatypes (S0 g).dsg maxChunk e.2).getD []).getD k [])
            hm) h
        refine ⟨?_, ?_⟩
        · intro e' he'
          rcases List.mem_cons.1 he' with rfl | he'
          · exact h1
          · exact h3 e' he'
        · rw [List.foldl_cons, h4, h2]
  obtain ⟨h1, h2⟩ := key comms S0 S1 (fun _ => ⟨rfl, rfl, rfl⟩) h
  refine ⟨fun c hc => ?_, ?_⟩
  · have : comms.getD c ([], []) ∈ comms := by
      rw [List.getD_eq_getElem _ _ hc]
      exact List.getElem_mem hc
    exact h1 _ this
  · rw [h2]
    have e : comms = (List.range comms.length).map fun c => comms.getD c ([], []) := by
      apply List.ext_getElem (by simp)
      intro i hi _
      simp [List.getElem?_eq_getElem hi]
    conv_lhs => rw [e]
    unfold allOps
    rw [List.foldl_map, List.foldl_flatMap]
    congr 1
    funext S c
    rw [List.foldl_map]
    rfl

theorem mem_allOps (maxChunk : ℕ) (comms : List (List ℕ × List ℕ)) (S : ℕ → Group K) (q : ℕ × ℕ) :
    q ∈ allOps maxChunk comms S ↔ q.1 < comms.length ∧ q.2 < num maxChunk comms S q.1 := by
  unfold allOps
  simp only [List.mem_flatMap, List.mem_range, List.mem_map]
  constructor
  · rintro ⟨c, hc, k, hk, rfl⟩
    exact ⟨hc, hk⟩
  · rintro ⟨h1, h2⟩
    exact ⟨q.1, h1, q.2, h2, rfl⟩

theorem allOps_nodup (maxChunk : ℕ) (comms : List (List ℕ × List ℕ)) (S : ℕ → Group K) :
    (allOps maxChunk comms S).Nodup := by
  unfold allOps
  rw [List.nodup_flatMap]
  refine ⟨fun c _ => ?_, ?_⟩
  · exact List.nodup_range.map fun a b h => (Prod.mk.inj h).2
  · refine List.nodup_range.imp ?_
    intro a b hab x hx hx'
    obtain ⟨k, -, rfl⟩ := List.mem_map.1 hx
    obtain ⟨k', -, e⟩ := List.mem_map.1 hx'
    exact hab (Prod.mk.inj e).1.symm

/-- No element of a process's sparse grid belongs to two reductions. -/
def Separate (maxChunk : ℕ) (comms : List (List ℕ × List ℕ)) (S : ℕ → Group K) : Prop :=
  ∀ (g c c' k k' : ℕ) (e e' : List ℕ × List ℕ) (d d' : List (List ℕ)) (p p' : List ℕ), (c, k) ≠ (c', k') →
    comms[c]? = some e → comms[c']? = some e' → g ∈ e.1 → g ∈ e'.1 →
    getReductionDatatypes (S g).dsg maxChunk e.2 = some d → getReductionDatatypes (S g).dsg maxChunk e'.2 = some d' →
    d[k]? = some p → d'[k']? = some p' → ∀ i ∈ p, i ∉ p'

theorem ops_comm [AddCommMonoid K] (maxChunk : ℕ) (comms : List (List ℕ × List ℕ)) (S0 : ℕ → Group K)
    (hm : ∀ c < comms.length, Match maxChunk S0 (comms.getD c ([], [])) (fun g => types maxChunk comms S0 g c)
      (num maxChunk comms S0 c)) (hs : Separate maxChunk comms S0) (q q' : ℕ × ℕ)
    (hq : q ∈ allOps maxChunk comms S0) (hq' : q' ∈ allOps maxChunk comms S0) (S : ℕ → Group K) :
    opOf maxChunk comms S0 (opOf maxChunk comms S0 S q) q' = opOf maxChunk comms S0 (opOf maxChunk comms S0 S q') q := by
  by_cases e : q = q'
  · rw [e]
  · rw [mem_allOps] at hq hq'
    unfold opOf
    refine op_comm _ _ _ _ _ ((hm q'.1 hq'.1).same _ hq'.2) ((hm q.1 hq.1).same _ hq.2) ?_
    intro g hg hg'
    have hk : q.2 < (types maxChunk comms S0 g q.1).length := by rw [(hm q.1 hq.1).num g hg']; exact hq.2
    have hk' : q'.2 < (types maxChunk comms S0 g q'.1).length := by rw [(hm q'.1 hq'.1).num g hg]; exact hq'.2
    have get : ∀ c < comms.length, comms[c]? = some (comms.getD c ([], [])) := fun c hc => by
      rw [List.getElem?_eq_getElem hc, List.getD_eq_getElem _ _ hc]
    refine hs g q'.1 q.1 q'.2 q.2 _ _ _ _ _ _ (fun h => e (by simpa using h.symm)) (get _ hq'.1) (get _ hq.1) hg hg'
      ((hm q'.1 hq'.1).types g hg) ((hm q.1 hq.1).types g hg') ?_ ?_
    · unfold pos
      rw [List.getD_eq_getElem _ _ hk', List.getElem?_eq_getElem hk']
    · unfold pos
      rw [List.getD_eq_getElem _ _ hk, List.getElem?_eq_getElem hk]

/-! ### The invariant -/

/-- The invariant of a process with iterations `own`: `done c` datatypes of communicator `c` have been reduced. -/
structure ProcInv (num : ℕ → ℕ) (own : List ℕ) (done : ℕ → ℕ) (p : Proc) : Prop where
  split : ∃ pre, own = pre ++ p.pool ∧ (∀ c ∈ pre, some (c, done c) ∈ p.threads ∨ done c = num c) ∧
    ∀ c k, some (c, k) ∈ p.threads → c ∈ pre ∧ k = done c
  pool : ∀ c ∈ p.pool, done c = 0
  team : p.threads ≠ []

structure Inv [AddCommMonoid K] (maxChunk : ℕ) (comms : List (List ℕ × List ℕ)) (S0 : ℕ → Group K)
    (done : ℕ → ℕ) (log : List (ℕ × ℕ)) (x : State K) : Prop where
  data : x.data = log.foldl (opOf maxChunk comms S0) S0
  nodup : log.Nodup
  log : ∀ q, q ∈ log ↔ q.1 < comms.length ∧ q.2 < done q.1
  le : ∀ c < comms.length, done c ≤ num maxChunk comms S0 c
  procs : ∀ g, ProcInv (num maxChunk comms S0) (ownComms comms g) done (x.procs g)

/-- What is left to do. -/
def todo (n m : ℕ) (num done : ℕ → ℕ) (procs : ℕ → Proc) : ℕ :=
  (∑ g ∈ Finset.range n, (2 * (procs g).pool.length + (procs g).threads.countP Option.isSome)) +
    ∑ c ∈ Finset.range m, (num c - done c)

theorem mem_own {comms : List (List ℕ × List ℕ)} {g c : ℕ} :
    c ∈ ownComms comms g ↔ c < comms.length ∧ g ∈ mem comms c := by
  unfold ownComms mem
  simp

theorem own_sorted (comms : List (List ℕ × List ℕ)) (g : ℕ) : (ownComms comms g).Pairwise (· < ·) :=
  List.pairwise_lt_range.filter _

theorem mem_next {p : Proc} {c c' k : ℕ} :
    some (c', k) ∈ (p.next c).threads ↔ (c' ≠ c ∧ some (c', k) ∈ p.threads) ∨
      (c' = c ∧ ∃ k', some (c, k') ∈ p.threads ∧ k = k' + 1) := by
  unfold Proc.next
  simp only [List.mem_map]
  constructor
  · rintro ⟨t, ht, e⟩
    cases t with
    | none => cases e
    | some s =>
      simp only [Option.map_some, Option.some.injEq] at e
      by_cases hs : s.1 = c
      · rw [if_pos hs] at e
        obtain ⟨rfl, rfl⟩ := Prod.mk.inj e
        exact Or.inr ⟨hs, s.2, by rw [← hs]; exact ht, rfl⟩
      · rw [if_neg hs] at e
        subst e
        exact Or.inl ⟨hs, ht⟩
  · rintro (⟨h1, h2⟩ | ⟨rfl, k', h1, rfl⟩)
    · exact ⟨_, h2, by simp [h1]⟩
    · exact ⟨_, h1, by simp⟩

variable [AddCommMonoid K] {maxChunk : ℕ} {comms : List (List ℕ × List ℕ)} {S0 : ℕ → Group K}

theorem Inv.sameMeta {done log} {x : State K} (h : Inv maxChunk comms S0 done log x) : SameMeta S0 x.data := by
  rw [h.data]
  exact foldl_meta log (fun q => mem comms q.1) (fun q g => pos maxChunk comms S0 g q) fun _ => ⟨rfl, rfl, rfl⟩

theorem sum_update_lt {n g : ℕ} (hg : g < n) (f : Proc → ℕ) (procs : ℕ → Proc) (p : Proc) (h : f p < f (procs g)) :
    ∑ j ∈ Finset.range n, f (Function.update procs g p j) < ∑ j ∈ Finset.range n, f (procs j) := by
  apply Finset.sum_lt_sum
  · intro j _
    by_cases e : j = g
    · subst e
      rw [Function.update_self]
      omega
    · rw [Function.update_of_ne e]
  · exact ⟨g, Finset.mem_range.2 hg, by rw [Function.update_self]; exact h⟩

theorem ProcInv.take {num : ℕ → ℕ} {own : List ℕ} {done : ℕ → ℕ} {p : Proc} (h : ProcInv num own done p)
    {c t : ℕ} {pool : List ℕ} (hp : p.pool = c :: pool) (ht : p.threads[t]? = some none) :
    ProcInv num own done ⟨pool, p.threads.set t (some (c, 0))⟩ := by
  obtain ⟨pre, h1, h2, h3⟩ := h.split
  obtain ⟨htl, hte⟩ := List.getElem?_eq_some_iff.1 ht
  have h0 : done c = 0 := h.pool c (by rw [hp]; simp)
  refine ⟨⟨pre ++ [c], by rw [h1, hp]; simp, ?_, ?_⟩, fun c' hc' => h.pool c' (by rw [hp]; simp [hc']), ?_⟩
  · intro c' hc'
    rcases List.mem_append.1 hc' with hc' | hc'
    · refine (h2 c' hc').imp ?_ id
      intro hm
      obtain ⟨j, hj, e⟩ := List.mem_iff_getElem.1 hm
      refine List.mem_iff_getElem.2 ⟨j, by simpa using hj, ?_⟩
      rw [List.getElem_set, if_neg, e]
      rintro rfl
      rw [hte] at e
      cases e
    · rw [List.mem_singleton] at hc'
      subst hc'
      exact Or.inl (by rw [h0]; exact List.mem_set htl _)
  · intro c' k' hm
    rcases List.mem_or_eq_of_mem_set hm with hm | hm
    · have := h3 c' k' hm
      exact ⟨List.mem_append.2 (Or.inl this.1), this.2⟩
    · obtain ⟨rfl, rfl⟩ := Prod.mk.inj (Option.some.inj hm)
      exact ⟨by simp, h0.symm⟩
  · intro e
    have : (p.threads.set t (some (c, 0))).length = 0 := by
      show List.length (Proc.threads ⟨pool, p.threads.set t (some (c, 0))⟩) = 0
      rw [e]
      rfl
    rw [List.length_set] at this
    omega

theorem ProcInv.finish {num : ℕ → ℕ} {own : List ℕ} {done : ℕ → ℕ} {p : Proc} (h : ProcInv num own done p)
    {c t k : ℕ} (ht : p.threads[t]? = some (some (c, k))) (hk : done c = num c) :
    ProcInv num own done ⟨p.pool, p.threads.set t none⟩ := by
  obtain ⟨pre, h1, h2, h3⟩ := h.split
  obtain ⟨htl, hte⟩ := List.getElem?_eq_some_iff.1 ht
  refine ⟨⟨pre, h1, ?_, ?_⟩, h.pool, ?_⟩
  · intro c' hc'
    by_cases e : c' = c
    · exact Or.inr (by rw [e]; exact hk)
    · refine (h2 c' hc').imp ?_ id
      intro hm
      obtain ⟨j, hj, ej⟩ := List.mem_iff_getElem.1 hm
      refine List.mem_iff_getElem.2 ⟨j, by simpa using hj, ?_⟩
      rw [List.getElem_set, if_neg, ej]
      rintro rfl
      rw [hte] at ej
      exact e (Prod.mk.inj (Option.some.inj ej)).1.symm
  · intro c' k' hm
    rcases List.mem_or_eq_of_mem_set hm with hm | hm
    · exact h3 c' k' hm
    · cases hm
  · intro e
    have : (p.threads.set t none).length = 0 := by
      show List.length (Proc.threads ⟨p.pool, p.threads.set t none⟩) = 0
      rw [e]
      rfl
    rw [List.length_set] at this
    omega

theorem ProcInv.reduce {num : ℕ → ℕ} {own : List ℕ} {done : ℕ → ℕ} {p : Proc} (h : ProcInv num own done p)
    (hown : own.Pairwise (· < ·)) {c : ℕ} (hc : some (c, done c) ∈ p.threads) :
    ProcInv num own (Function.update done c (done c + 1)) (p.next c) := by
  obtain ⟨pre, h1, h2, h3⟩ := h.split
  have hcpre := (h3 c _ hc).1
  refine ⟨⟨pre, h1, ?_, ?_⟩, ?_, ?_⟩
  · intro c' hc'
    by_cases e : c' = c
    · subst e
      rw [Function.update_self]
      exact Or.inl (mem_next.2 (Or.inr ⟨rfl, _, hc, rfl⟩))
    · rw [Function.update_of_ne e]
      exact (h2 c' hc').imp (fun hm => mem_next.2 (Or.inl ⟨e, hm⟩)) id
  · intro c' k hm
    rcases mem_next.1 hm with ⟨e, hm'⟩ | ⟨rfl, k', hm', rfl⟩
    · rw [Function.update_of_ne e]
      exact h3 c' k hm'
    · rw [Function.update_self, (h3 c' k' hm').2]
      exact ⟨hcpre, rfl⟩
  · intro c' hc'
    have hc'' : c' ∈ p.pool := hc'
    rw [Function.update_of_ne, h.pool c' hc'']
    rintro rfl
    rw [h1, List.pairwise_append] at hown
    have := hown.2.2 _ hcpre _ hc''
    omega
  · intro e
    exact h.team (by simpa [Proc.next] using e)

theorem ProcInv.other {num : ℕ → ℕ} {own : List ℕ} {done : ℕ → ℕ} {p : Proc} (h : ProcInv num own done p)
    {c v : ℕ} (hc : c ∉ own) : ProcInv num own (Function.update done c v) p := by
  obtain ⟨pre, h1, h2, h3⟩ := h.split
  have hne : ∀ c' ∈ own, c' ≠ c := fun c' hc' e => hc (e ▸ hc')
  refine ⟨⟨pre, h1, ?_, ?_⟩, ?_, h.team⟩
  · intro c' hc'
    rw [Function.update_of_ne (hne c' (by rw [h1]; simp [hc']))]
    exact h2 c' hc'
  · intro c' k hm
    have := h3 c' k hm
    rw [Function.update_of_ne (hne c' (by rw [h1]; simp [this.1]))]
    exact this
  · intro c' hc'
    rw [Function.update_of_ne (hne c' (by rw [h1]; simp [hc']))]
    exact h.pool c' hc'

/-- Every step preserves the invariant and makes progress. -/
theorem step_inv (hm : ∀ c < comms.length, Match maxChunk S0 (comms.getD c ([], []))
      (fun g => types maxChunk comms S0 g c) (num maxChunk comms S0 c)) {n : ℕ}
    (hn : ∀ e ∈ comms, ∀ g ∈ e.1, g < n) {done log} {x y : State K} (h : Inv maxChunk comms S0 done log x)
    (hs : Step maxChunk comms x y) :
    ∃ done' log', Inv maxChunk comms S0 done' log' y ∧
      todo n comms.length (num maxChunk comms S0) done' y.procs < todo n comms.length (num maxChunk comms S0) done x.procs := by
  have hmem : ∀ c < comms.length, ∀ g ∈ mem comms c, g < n := by
    intro c hc g hg
    refine hn (comms.getD c ([], [])) ?_ g hg
    rw [List.getD_eq_getElem _ _ hc]
    exact List.getElem_mem hc
  have get : ∀ {c e}, comms[c]? = some e → c < comms.length ∧ e = comms.getD c ([], []) := by
    intro c e hce
    obtain ⟨hc, rfl⟩ := List.getElem?_eq_some_iff.1 hce
    exact ⟨hc, (List.getD_eq_getElem _ _ hc).symm⟩
  have hdt := h.sameMeta
  cases hs with
  | take g t c pool hp ht =>
    obtain ⟨pre, h1, -, -⟩ := (h.procs g).split
    have hown := mem_own.1 (show c ∈ ownComms comms g by rw [h1, hp]; simp)
    refine ⟨done, log, ⟨h.data, h.nodup, h.log, h.le, ?_⟩, ?_⟩
    · intro g'
      by_cases e : g' = g
      · subst e
        simp only [Function.update_self]
        exact (h.procs g').take hp ht
      · simp only [Function.update_of_ne e]
        exact h.procs g'
    · unfold todo
      refine Nat.add_lt_add_right (sum_update_lt (hmem c hown.1 g hown.2)
        (fun p => 2 * p.pool.length + p.threads.countP Option.isSome) x.procs _ ?_) _
      obtain ⟨htl, hte⟩ := List.getElem?_eq_some_iff.1 ht
      simp only [List.countP_set htl, hte, hp, List.length_cons, Option.isSome_some, Option.isSome_none, if_true,
        Bool.false_eq_true, if_false]
      omega
  | finish g t c k e dts ht hce hd hk =>
    obtain ⟨hc, rfl⟩ := get hce
    obtain ⟨pre, h1, h2, h3⟩ := (h.procs g).split
    obtain ⟨hcp, rfl⟩ := h3 c k (List.mem_of_getElem? ht)
    have hown := mem_own.1 (show c ∈ ownComms comms g by rw [h1]; simp [hcp])
    rw [hdt.datatypes, (hm c hc).types g hown.2] at hd
    obtain rfl := Option.some.inj hd
    rw [(hm c hc).num g hown.2] at hk
    have hle := h.le c hc
    refine ⟨done, log, ⟨h.data, h.nodup, h.log, h.le, ?_⟩, ?_⟩
    · intro g'
      by_cases e : g' = g
      · subst e
        simp only [Function.update_self]
        exact (h.procs g').finish ht (by omega)
      · simp only [Function.update_of_ne e]
        exact h.procs g'
    · unfold todo
      refine Nat.add_lt_add_right (sum_update_lt (hmem c hown.1 g hown.2)
        (fun p => 2 * p.pool.length + p.threads.countP Option.isSome) x.procs _ ?_) _
      obtain ⟨htl, hte⟩ := List.getElem?_eq_some_iff.1 ht
      have hpos : 0 < (x.procs g).threads.countP Option.isSome :=
        List.countP_pos_iff.2 ⟨_, List.mem_of_getElem? ht, rfl⟩
      simp only [List.countP_set htl, hte, Option.isSome_some, Option.isSome_none, if_true, Bool.false_eq_true, if_false]
      omega
  | reduce g c k e dts data hce hg hall hd hk har =>
    obtain ⟨hc, rfl⟩ := get hce
    have hown : ∀ m ∈ mem comms c, some (c, done c) ∈ (x.procs m).threads ∧ k = done c := by
      intro m hmm
      obtain ⟨pre, h1, h2, h3⟩ := (h.procs m).split
      have := (h3 c k (hall m hmm)).2
      subst this
      exact ⟨hall m hmm, rfl⟩
    obtain rfl := (hown g hg).2
    simp only [hdt.datatypes] at hd
    have hD : dts = (mem comms c).map fun m => types maxChunk comms S0 m c := (mapM_getD _ _ _ hd).1
    subst hD
    have hlt : done c < num maxChunk comms S0 c := by
      rw [← (hm c hc).num g hg]
      exact hk _ (List.mem_map.2 ⟨g, hg, rfl⟩)
    rw [List.map_map] at har
    obtain ⟨-, rfl⟩ := (allreduce_op _ _ _ _).1 har
    have hnot : (c, done c) ∉ log := by
      rw [h.log]
      simp
    refine ⟨Function.update done c (done c + 1), log ++ [(c, done c)], ⟨?_, ?_, ?_, ?_, ?_⟩, ?_⟩
    · rw [List.foldl_append, ← h.data]
      rfl
    · rw [List.nodup_append]
      refine ⟨h.nodup, by simp, ?_⟩
      rintro a ha b hb rfl
      rw [List.mem_singleton] at hb
      exact hnot (hb ▸ ha)
    · intro q
      rw [List.mem_append, h.log, List.mem_singleton]
      by_cases e : q.1 = c
      · subst e
        rw [Function.update_self]
        constructor
        · rintro (⟨a, b⟩ | e)
          · exact ⟨a, by omega⟩
          · exact ⟨hc, by rw [e]; simp⟩
        · rintro ⟨a, b⟩
          by_cases e : q.2 = done q.1
          · exact Or.inr (Prod.ext rfl e)
          · exact Or.inl ⟨a, by omega⟩
      · rw [Function.update_of_ne e]
        constructor
        · rintro (h' | h')
          · exact h'
          · exact absurd (congrArg Prod.fst h') e
        · exact Or.inl
    · intro c' hc'
      by_cases e : c' = c
      · subst e
        rw [Function.update_self]
        exact hlt
      · rw [Function.update_of_ne e]
        exact h.le c' hc'
    · intro m
      by_cases hmm : m ∈ mem comms c
      · have : m ∈ (comms.getD c ([], [])).1 := hmm
        simp only [this, if_true]
        exact (h.procs m).reduce (own_sorted comms m) (hown m hmm).1
      · have : m ∉ (comms.getD c ([], [])).1 := hmm
        simp only [this, if_false]
        exact (h.procs m).other fun hc' => hmm (mem_own.1 hc').2
    · unfold todo
      have e1 : ∀ m, (fun m => if m ∈ (comms.getD c ([], [])).1 then (x.procs m).next c else x.procs m) m =
          (if m ∈ (comms.getD c ([], [])).1 then (x.procs m).next c else x.procs m) := fun _ => rfl
      have e2 : ∀ m, 2 * (if m ∈ (comms.getD c ([], [])).1 then (x.procs m).next c else x.procs m).pool.length +
          (if m ∈ (comms.getD c ([], [])).1 then (x.procs m).next c else x.procs m).threads.countP Option.isSome =
          2 * (x.procs m).pool.length + (x.procs m).threads.countP Option.isSome := by
        intro m
        split
        · simp only [Proc.next, List.countP_map]
          congr 1
          apply List.countP_congr
          intro t _
          cases t <;> simp
        · rfl
      simp only [e2]
      refine Nat.add_lt_add_left (Finset.sum_lt_sum ?_ ⟨c, Finset.mem_range.2 hc, ?_⟩) _
      · intro c' _
        by_cases e : c' = c
        · subst e
          rw [Function.update_self]
          omega
        · rw [Function.update_of_ne e]
      · rw [Function.update_self]
        omega

/-- Unless all threads are at the end, there is a step: of the iterations that are not finished, the one with the smallest
communicator goes on. -/
theorem step_exists (hm : ∀ c < comms.length, Match maxChunk S0 (comms.getD c ([], []))
      (fun g => types maxChunk comms S0 g c) (num maxChunk comms S0 c))
    {done log} {x : State K} (h : Inv maxChunk comms S0 done log x) (hnd : ¬ x.Done) :
    ∃ y, Step maxChunk comms x y := by
  classical
  have hU : ∃ c, ∃ g, c ∈ (x.procs g).pool ∨ ∃ k, some (c, k) ∈ (x.procs g).threads := by
    by_contra hno
    push Not at hno
    apply hnd
    intro g
    constructor
    · rw [List.eq_nil_iff_forall_not_mem]
      exact fun c hc => (hno c g).1 hc
    · intro t ht
      cases t with
      | none => rfl
      | some s => exact absurd ht ((hno s.1 g).2 s.2)
  obtain ⟨g, hg⟩ := Nat.find_spec hU
  have hmin : ∀ c' g', (c' ∈ (x.procs g').pool ∨ ∃ k, some (c', k) ∈ (x.procs g').threads) →
      Nat.find hU ≤ c' := fun c' g' h' => Nat.find_min' hU ⟨g', h'⟩
  generalize Nat.find hU = c at hg hmin
  by_cases hpool : ∃ g', c ∈ (x.procs g').pool
  · obtain ⟨g', hg'⟩ := hpool
    obtain ⟨pre, h1, -, h3⟩ := (h.procs g').split
    have hsort := own_sorted comms g'
    rw [h1, List.pairwise_append] at hsort
    cases hp : (x.procs g').pool with
    | nil => rw [hp] at hg'; simp at hg'
    | cons c0 pool =>
      have hle := hmin c0 g' (Or.inl (by rw [hp]; simp))
      have hc0 : c0 = c := by
        rw [hp] at hg' hsort
        rcases List.mem_cons.1 hg' with e | hin
        · exact e.symm
        · have := (List.pairwise_cons.1 hsort.2.1).1 c hin
          omega
      subst hc0
      cases ht : (x.procs g').threads with
      | nil => exact absurd ht (h.procs g').team
      | cons t ts =>
        cases t with
        | none => exact ⟨_, .take x g' 0 c0 pool hp (by rw [ht]; rfl)⟩
        | some s =>
          have hs : some (s.1, s.2) ∈ (x.procs g').threads := by rw [ht]; simp
          have hlt := hsort.2.2 _ (h3 _ _ hs).1 c0 hg'
          have := hmin s.1 g' (Or.inr ⟨_, hs⟩)
          omega
  · obtain hg | ⟨k, hk⟩ := hg
    · exact absurd ⟨g, hg⟩ hpool
    · obtain ⟨pre, h1, h2, h3⟩ := (h.procs g).split
      obtain ⟨hcp, rfl⟩ := h3 c k hk
      obtain ⟨hc, hgm⟩ := mem_own.1 (show c ∈ ownComms comms g by rw [h1]; simp [hcp])
      have hget : comms[c]? = some (comms.getD c ([], [])) := by
        rw [List.getElem?_eq_getElem hc, List.getD_eq_getElem _ _ hc]
      have hdt := h.sameMeta
      by_cases hdone : done c = num maxChunk comms S0 c
      · obtain ⟨t, ht, e⟩ := List.mem_iff_getElem.1 hk
        refine ⟨_, .finish x g t c _ _ _ (by rw [List.getElem?_eq_getElem ht, e]) hget
          (by rw [hdt.datatypes]; exact (hm c hc).types g hgm) ?_⟩
        rw [(hm c hc).num g hgm, hdone]
      · have hle := h.le c hc
        refine ⟨_, .reduce x g c (done c) _ ((mem comms c).map fun m => types maxChunk comms S0 m c)
          (op (mem comms c) (fun m => pos maxChunk comms S0 m (c, done c)) x.data) hget hgm ?_ ?_ ?_ ?_⟩
        · intro m hmm
          obtain ⟨pre, h1, h2, -⟩ := (h.procs m).split
          have : c ∈ ownComms comms m := mem_own.2 ⟨hc, hmm⟩
          rw [h1] at this
          rcases List.mem_append.1 this with hin | hin
          · exact (h2 c hin).resolve_right hdone
          · exact absurd ⟨m, hin⟩ hpool
        · apply mapM_some_map
          intro m hmm
          rw [hdt.datatypes]
          exact (hm c hc).types m hmm
        · intro d hd
          obtain ⟨m, hmm, rfl⟩ := List.mem_map.1 hd
          rw [(hm c hc).num m hmm]
          omega
        · rw [List.map_map]
          refine (allreduce_op _ _ _ _).2 ⟨?_, rfl⟩
          exact (hm c hc).same _ (by omega)

end Verif.ThreadReduce
