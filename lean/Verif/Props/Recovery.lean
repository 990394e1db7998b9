import Verif.Lemmas.Recovery
import Mathlib.Tactic.IntervalCases

/-!
# C80: recovering the communicators keeps the groups

A group with dead processes gets processes that wait in reserve, each on the rank of a dead process, if there
are enough of them. Otherwise all groups with dead processes leave and their living processes wait in
reserve. In both cases the world communicator consists of whole groups of `np` processes in the old order
with the manager at the end, so that the communicators of the groups can be built again.
-/

namespace Verif.Recovery

/-- A state between recoveries: the world communicator consists of the groups `gs` and of the manager `m`;
every process in it knows its rank; the manager has a list of exactly the ranks of the processes that wait in
reserve. -/
structure Ok (np : ℕ) (gs : List (List ℕ)) (m : ℕ) (st : State) : Prop where
  world : st.world = gs.flatten ++ [m]
  size : ∀ g ∈ gs, g.length = np
  nodup : st.world.Nodup
  spare_nodup : st.spare.Nodup
  sub : ∀ p ∈ st.world, p ∈ st.spare
  last : ∃ s, st.spare = s ++ [m]
  rank : ∀ p ∈ st.world, st.rank p = st.world.idxOf p
  reusable_nodup : st.reusable.Nodup
  reusable : ∀ r, r ∈ st.reusable ↔ ∃ p, st.spare[r]? = some p ∧ p ∉ st.world

/-- The state after the start of the program: nobody waits in reserve. -/
theorem C80_init (np : ℕ) (gs : List (List ℕ)) (m : ℕ) (hsize : ∀ g ∈ gs, g.length = np)
    (hnd : (gs.flatten ++ [m]).Nodup) :
    Ok np gs m ⟨gs.flatten ++ [m], gs.flatten ++ [m], fun p => (gs.flatten ++ [m]).idxOf p, []⟩ := by
  refine ⟨rfl, hsize, hnd, hnd, fun p hp => hp, ⟨_, rfl⟩, fun p _ => rfl, List.nodup_nil, fun r => ?_⟩
  constructor
  · intro h
    simp at h
  · rintro ⟨p, hp, hn⟩
    exact absurd (List.mem_of_getElem? hp) hn

/-- The groups with a dead process. -/
def failed (gs : List (List ℕ)) (dead : List ℕ) : List (List ℕ) := gs.filter fun g => ∃ q ∈ g, q ∈ dead

/-- The groups without dead processes. -/
def intact (gs : List (List ℕ)) (dead : List ℕ) : List (List ℕ) := gs.filter fun g => ∀ q ∈ g, q ∉ dead

section
variable {np : ℕ} {gs : List (List ℕ)} {m : ℕ} {st : State} {dead : List ℕ}

lemma Ok.manager_notMem (ok : Ok np gs m st) : m ∉ gs.flatten := by
  have := ok.nodup
  rw [ok.world, List.nodup_append] at this
  exact fun h => this.2.2 m h m (by simp) rfl

lemma Ok.flatten_nodup (ok : Ok np gs m st) : gs.flatten.Nodup := by
  have := ok.nodup
  rw [ok.world, List.nodup_append] at this
  exact this.1

lemma mem_lost (hnp : 0 < np) (ok : Ok np gs m st) (hd : ∀ p ∈ dead, p ∈ gs.flatten) (p : ℕ) :
    p ∈ lost np st dead ↔ p ∉ dead ∧ ∃ g ∈ gs, p ∈ g ∧ ∃ q ∈ g, q ∈ dead := by
  have hW : ∀ p ∈ gs.flatten, p ∈ st.world := fun p hp => by rw [ok.world]; simp [hp]
  have hrank : ∀ p ∈ st.world, st.rank p = (gs.flatten ++ [m]).idxOf p := fun p hp => by
    rw [ok.rank p hp, ok.world]
  unfold lost
  rw [List.mem_filter, decide_eq_true_eq]
  constructor
  · rintro ⟨hp, hpd, q, hq, he⟩
    refine ⟨hpd, ?_⟩
    obtain ⟨g, hg, hqg⟩ := List.mem_flatten.1 (hd q hq)
    obtain ⟨i, hi, rfl⟩ := List.mem_iff_getElem.1 hg
    have h1 := idxOf_div np hnp gs [m] ok.size ok.flatten_nodup i hi q hqg
    rw [hrank q (hW q (hd q hq)), h1, hrank p hp] at he
    refine ⟨gs[i], hg, ?_, q, hqg, hq⟩
    have hp' := hp
    rw [ok.world, List.mem_append] at hp'
    rcases hp' with h | h
    · obtain ⟨g', hg', hpg⟩ := List.mem_flatten.1 h
      obtain ⟨j, hj, rfl⟩ := List.mem_iff_getElem.1 hg'
      have h2 := idxOf_div np hnp gs [m] ok.size ok.flatten_nodup j hj p hpg
      rw [h2] at he
      subst he
      exact hpg
    · rw [List.mem_singleton] at h
      subst h
      rw [idxOf_last _ _ ok.manager_notMem, length_flatten_const np gs ok.size,
        Nat.mul_div_cancel _ hnp] at he
      omega
  · rintro ⟨hpd, g, hg, hpg, q, hqg, hq⟩
    obtain ⟨i, hi, rfl⟩ := List.mem_iff_getElem.1 hg
    have hpW : p ∈ st.world := hW p (List.mem_flatten.2 ⟨_, hg, hpg⟩)
    refine ⟨hpW, hpd, q, hq, ?_⟩
    rw [hrank p hpW, hrank q (hW q (hd q hq)),
      idxOf_div np hnp gs [m] ok.size ok.flatten_nodup i hi q hqg,
      idxOf_div np hnp gs [m] ok.size ok.flatten_nodup i hi p hpg]

lemma length_filter_add (l : List ℕ) (P : ℕ → Prop) [DecidablePred P] :
    (l.filter fun p => P p).length + (l.filter fun p => ¬ P p).length = l.length := by
  induction l with
  | nil => rfl
  | cons a l ih =>
    by_cases h : P a
    · simp only [List.filter_cons, h, decide_true, if_true, not_true_eq_false, decide_false,
        List.length_cons] at ih ⊢
      simp at ih ⊢
      omega
    · simp only [List.filter_cons, h, decide_true, if_true, not_false_eq_true, decide_false,
        List.length_cons] at ih ⊢
      simp at ih ⊢
      omega

lemma filter_dead_perm {l : List ℕ} (hl : l.Nodup) (hdn : dead.Nodup) (hd : ∀ p ∈ dead, p ∈ l) :
    (l.filter (· ∈ dead)).Perm dead := by
  refine (List.perm_ext_iff_of_nodup (hl.filter _) hdn).2 fun p => ?_
  rw [List.mem_filter, decide_eq_true_eq]
  exact ⟨fun h => h.2, fun h => ⟨hd p h, h⟩⟩

lemma length_lost (hnp : 0 < np) (ok : Ok np gs m st) (hdn : dead.Nodup)
    (hd : ∀ p ∈ dead, p ∈ gs.flatten) :
    dead.length + (lost np st dead).length = (failed gs dead).length * np := by
  have hfn : (failed gs dead).flatten.Nodup :=
    ok.flatten_nodup.sublist (List.Sublist.flatten List.filter_sublist)
  have hsz : (failed gs dead).flatten.length = (failed gs dead).length * np :=
    length_flatten_const np _ fun g hg => ok.size g (List.mem_of_mem_filter hg)
  have hdf : ∀ p ∈ dead, p ∈ (failed gs dead).flatten := fun p hp => by
    obtain ⟨g, hg, hpg⟩ := List.mem_flatten.1 (hd p hp)
    exact List.mem_flatten.2 ⟨g, List.mem_filter.2 ⟨hg, by simpa using ⟨p, hpg, hp⟩⟩, hpg⟩
  have h1 := (filter_dead_perm hfn hdn hdf).length_eq
  have h2 : (lost np st dead).Perm ((failed gs dead).flatten.filter (· ∉ dead)) := by
    refine (List.perm_ext_iff_of_nodup (ok.nodup.filter _) (hfn.filter _)).2 fun p => ?_
    have := mem_lost hnp ok hd p
    unfold lost at this
    rw [this, List.mem_filter, decide_eq_true_eq, List.mem_flatten]
    unfold failed
    simp only [List.mem_filter, decide_eq_true_eq]
    constructor
    · rintro ⟨a, g, b, c, d⟩
      exact ⟨⟨g, ⟨b, d⟩, c⟩, a⟩
    · rintro ⟨⟨g, ⟨b, d⟩, c⟩, a⟩
      exact ⟨a, g, b, c, d⟩
  have h3 := h2.length_eq
  have h4 := length_filter_add (failed gs dead).flatten (· ∈ dead)
  omega

lemma at'_append (comm r s : List ℕ) : at' comm (r ++ s) = at' comm r ++ at' comm s := List.map_append

lemma at'_nodup {comm r : List ℕ} (h : (at' comm r).Nodup) : r.Nodup := List.Nodup.of_map _ h

lemma length_at' (comm r : List ℕ) : (at' comm r).length = r.length := List.length_map _

lemma Ok.alive (ok : Ok np gs m st) (hd : ∀ p ∈ dead, p ∈ gs.flatten) (p : ℕ) :
    p ∈ shrink dead st.spare ↔ (p ∈ st.world ∧ p ∉ dead) ∨ (p ∈ st.spare ∧ p ∉ st.world) := by
  unfold shrink
  rw [List.mem_filter, decide_eq_true_eq]
  constructor
  · rintro ⟨h1, h2⟩
    by_cases h : p ∈ st.world
    · exact .inl ⟨h, h2⟩
    · exact .inr ⟨h1, h⟩
  · rintro (⟨h1, h2⟩ | ⟨h1, h2⟩)
    · exact ⟨ok.sub p h1, h2⟩
    · refine ⟨h1, fun h => h2 ?_⟩
      rw [ok.world]
      simp [hd p h]

lemma Ok.shrink_last (ok : Ok np gs m st) (hd : ∀ p ∈ dead, p ∈ gs.flatten) :
    ∃ s, shrink dead st.spare = s ++ [m] := by
  obtain ⟨s, hs⟩ := ok.last
  refine ⟨s.filter (· ∉ dead), ?_⟩
  unfold shrink
  rw [hs, List.filter_append]
  have : m ∉ dead := fun h => ok.manager_notMem (hd m h)
  simp [this]

/-- The new world communicator when the dead are replaced. -/
lemma replaced (ok : Ok np gs m st) (hdn : dead.Nodup) (hd : ∀ p ∈ dead, p ∈ gs.flatten)
    (R F : List ℕ) (rank1 : ℕ → ℕ)
    (hRn : (at' (shrink dead st.spare) R).Nodup)
    (hRm : ∀ p, p ∈ at' (shrink dead st.spare) R ↔ p ∈ st.spare ∧ p ∉ st.world)
    (hF : F.Perm (dead.map st.rank)) (hle : dead.length ≤ R.length)
    (hrank1 : ∀ p ∈ st.world, rank1 p = st.rank p) :
    ∃ f : ℕ → ℕ, (∀ p, p ∉ dead → f p = p) ∧
      (∀ p ∈ dead, f p ∈ st.spare ∧ f p ∉ st.world) ∧
      (st.world.map f).Nodup ∧
      split (shrink dead st.spare)
        (fun p => p ∉ at' (shrink dead st.spare) (R.drop F.length))
        (reusedRanks (at' (shrink dead st.spare) (R.take F.length)) F rank1) = st.world.map f := by
  have hFl : F.length = dead.length := by rw [hF.length_eq, List.length_map]
  have hsplit : at' (shrink dead st.spare) (R.take F.length) ++
      at' (shrink dead st.spare) (R.drop F.length) = at' (shrink dead st.spare) R := by
    rw [← at'_append, List.take_append_drop]
  have hUl : (at' (shrink dead st.spare) (R.take F.length)).length = F.length := by
    rw [length_at', List.length_take]
    omega
  generalize at' (shrink dead st.spare) (R.take F.length) = U at *
  generalize at' (shrink dead st.spare) (R.drop F.length) = X at *
  rw [← hsplit] at hRn hRm
  have hUX : ∀ p ∈ U, p ∉ X := fun p h1 h2 => (List.nodup_append.1 hRn).2.2 p h1 p h2 rfl
  have hUn : U.Nodup := (List.nodup_append.1 hRn).1
  have hdW : ∀ p ∈ dead, p ∈ st.world := fun p hp => by rw [ok.world]; simp [hd p hp]
  have hinj : ∀ p ∈ st.world, ∀ q ∈ st.world, st.rank p = st.rank q → p = q := by
    intro p hp q hq h
    rw [ok.rank p hp, ok.rank q hq] at h
    exact (List.idxOf_inj hp).1 h
  have hFn : F.Nodup := by
    refine hF.nodup_iff.2 ?_
    exact hdn.map_on fun p hp q hq h => hinj p (hdW p hp) q (hdW q hq) h
  have hFi : ∀ p ∈ dead, F.idxOf (st.rank p) < U.length := fun p hp => by
    rw [hUl]
    exact List.idxOf_lt_length_iff.2 (hF.mem_iff.2 (List.mem_map.2 ⟨p, hp, rfl⟩))
  set f : ℕ → ℕ := fun p => if p ∈ dead then U.getD (F.idxOf (st.rank p)) 0 else p with hf
  have hf1 : ∀ p, p ∉ dead → f p = p := fun p hp => by rw [hf]; simp [hp]
  have hf2 : ∀ p (hp : p ∈ dead), f p = U[F.idxOf (st.rank p)]'(hFi p hp) := fun p hp => by
    simp only [hf, hp, if_true]
    rw [List.getD_eq_getElem?_getD, List.getElem?_eq_getElem (hFi p hp), Option.getD_some]
  have hf3 : ∀ p ∈ dead, f p ∈ U := fun p hp => by
    rw [hf2 p hp]
    exact List.getElem_mem _
  have hkey : ∀ p ∈ st.world, (((U.zip F).lookup (f p)).getD (rank1 (f p))) = st.rank p := by
    intro p hp
    by_cases hpd : p ∈ dead
    · have hm : st.rank p ∈ F := hF.mem_iff.2 (List.mem_map.2 ⟨p, hpd, rfl⟩)
      rw [hf2 p hpd, lookup_zip U F hUn _ (hFi p hpd) (List.idxOf_lt_length_iff.2 hm),
        Option.getD_some, List.getElem_idxOf]
    · rw [hf1 p hpd, lookup_zip_none _ _ _ ?_, Option.getD_none, hrank1 p hp]
      intro h
      exact ((hRm p).1 (by simp [h])).2 hp
  have hpw : (st.world.map f).Pairwise fun p q =>
      ((U.zip F).lookup p).getD (rank1 p) < ((U.zip F).lookup q).getD (rank1 q) := by
    rw [List.pairwise_map]
    refine (pairwise_idxOf ok.nodup).imp_of_mem fun {p q} hp hq h => ?_
    rw [hkey p hp, hkey q hq, ok.rank p hp, ok.rank q hq]
    exact h
  have hsn : (shrink dead st.spare).Nodup := ok.spare_nodup.filter _
  refine ⟨f, hf1, fun p hp => (hRm _).1 (by simp [hf3 p hp]), ?_, ?_⟩
  · rw [List.nodup_iff_pairwise_ne]
    refine hpw.imp fun {p q} h he => ?_
    rw [he] at h
    omega
  · refine split_eq _ _ _ _ hsn hpw fun p => ?_
    rw [decide_eq_true_eq, ok.alive hd, List.mem_map]
    constructor
    · rintro ⟨q, hq, rfl⟩
      by_cases hqd : q ∈ dead
      · exact ⟨.inr ((hRm _).1 (by simp [hf3 q hqd])), hUX _ (hf3 q hqd)⟩
      · rw [hf1 q hqd]
        exact ⟨.inl ⟨hq, hqd⟩, fun h => ((hRm q).1 (by simp [h])).2 hq⟩
    · rintro ⟨⟨h1, h2⟩ | h, hX⟩
      · exact ⟨p, h1, hf1 p h2⟩
      · have hpU : p ∈ U := by
          have := (hRm p).2 h
          rw [List.mem_append] at this
          exact this.resolve_right hX
        obtain ⟨i, hi, rfl⟩ := List.mem_iff_getElem.1 hpU
        have hFm : F[i]'(by omega) ∈ dead.map st.rank := hF.mem_iff.1 (List.getElem_mem _)
        obtain ⟨q, hq, he⟩ := List.mem_map.1 hFm
        refine ⟨q, hdW q hq, ?_⟩
        rw [hf2 q hq]
        congr 1
        rw [he, hFn.idxOf_getElem]

lemma mem_intact (p : ℕ) : p ∈ (intact gs dead).flatten ↔ ∃ g ∈ gs, p ∈ g ∧ ∀ q ∈ g, q ∉ dead := by
  unfold intact
  rw [List.mem_flatten]
  simp only [List.mem_filter, decide_eq_true_eq]
  constructor
  · rintro ⟨g, ⟨a, b⟩, c⟩
    exact ⟨g, a, c, b⟩
  · rintro ⟨g, a, c, b⟩
    exact ⟨g, ⟨a, b⟩, c⟩

/-- A process of the world is dead, or in a group with a dead process, or in an intact group, or the
manager. -/
lemma intact_iff (hnp : 0 < np) (ok : Ok np gs m st) (hd : ∀ p ∈ dead, p ∈ gs.flatten) (p : ℕ) :
    p ∈ (intact gs dead).flatten ++ [m] ↔ (p ∈ st.world ∧ p ∉ dead) ∧ p ∉ lost np st dead := by
  rw [mem_lost hnp ok hd, List.mem_append, mem_intact, List.mem_singleton]
  constructor
  · rintro (⟨g, hg, hp, hq⟩ | rfl)
    · have hpf : p ∈ gs.flatten := List.mem_flatten.2 ⟨g, hg, hp⟩
      refine ⟨⟨by rw [ok.world]; simp [hpf], hq p hp⟩, ?_⟩
      rintro ⟨-, g', hg', hp', q, hq', hqd⟩
      have : g = g' := by
        obtain ⟨i, hi, rfl⟩ := List.mem_iff_getElem.1 hg
        obtain ⟨j, hj, rfl⟩ := List.mem_iff_getElem.1 hg'
        have h1 := idxOf_div np hnp gs [] ok.size ok.flatten_nodup i hi p hp
        have h2 := idxOf_div np hnp gs [] ok.size ok.flatten_nodup j hj p hp'
        rw [h1] at h2
        subst h2
        rfl
      subst this
      exact hq q hq' hqd
    · refine ⟨⟨by rw [ok.world]; simp, fun h => ok.manager_notMem (hd _ h)⟩, ?_⟩
      rintro ⟨-, g, hg, hp, -⟩
      exact ok.manager_notMem (List.mem_flatten.2 ⟨g, hg, hp⟩)
  · rintro ⟨⟨hp, hpd⟩, hl⟩
    rw [ok.world, List.mem_append, List.mem_singleton] at hp
    rcases hp with hp | hp
    · obtain ⟨g, hg, hpg⟩ := List.mem_flatten.1 hp
      refine .inl ⟨g, hg, hpg, fun q hq hqd => hl ⟨hpd, g, hg, hpg, q, hq, hqd⟩⟩
    · exact .inr hp

/-- The new world communicator when the groups with dead processes leave. -/
lemma removed (hnp : 0 < np) (ok : Ok np gs m st) (hd : ∀ p ∈ dead, p ∈ gs.flatten)
    (X L : List ℕ) (rank2 : ℕ → ℕ) (hX : ∀ p, p ∈ X ↔ p ∈ st.spare ∧ p ∉ st.world)
    (hL : ∀ p, p ∈ L ↔ p ∈ lost np st dead)
    (hrank : ∀ p ∈ st.world, p ∉ L → rank2 p = st.rank p) :
    ((intact gs dead).flatten ++ [m]).Nodup ∧
    split (shrink dead st.spare) (fun p => p ∉ X ∧ p ∉ L) rank2 = (intact gs dead).flatten ++ [m] := by
  have hsub : ((intact gs dead).flatten ++ [m]).Sublist st.world := by
    rw [ok.world]
    exact (List.Sublist.flatten List.filter_sublist).append (List.Sublist.refl _)
  refine ⟨ok.nodup.sublist hsub, split_eq _ _ _ _ (ok.spare_nodup.filter _) ?_ fun p => ?_⟩
  · refine ((pairwise_idxOf ok.nodup).sublist hsub).imp_of_mem fun {p q} hp hq h => ?_
    have hp' := (intact_iff hnp ok hd p).1 hp
    have hq' := (intact_iff hnp ok hd q).1 hq
    rw [hrank p hp'.1.1 (by rw [hL]; exact hp'.2), hrank q hq'.1.1 (by rw [hL]; exact hq'.2),
      ok.rank p hp'.1.1, ok.rank q hq'.1.1]
    exact h
  · rw [intact_iff hnp ok hd, decide_eq_true_eq, ok.alive hd, hX, hL]
    constructor
    · rintro ⟨h1, h2⟩
      exact ⟨.inl h1, fun h => h.2 h1.1, h2⟩
    · rintro ⟨h1 | h1, h2, h3⟩
      · exact ⟨h1, h3⟩
      · exact absurd h1 h2

end

/-- Recovery after the processes `dead` of the groups died. It ends, whatever the order in which the messages
arrive. It fails exactly when fewer processes wait in reserve than died. If it succeeds, every dead process
has been replaced by a process from the reserve and everyone else has kept their place. If it fails, the
groups without dead processes remain in the same order, and the living processes of the others go to the
reserve. -/
theorem C80_recover (np : ℕ) (hnp : 0 < np) (arrive : ℕ → List ℕ → List ℕ)
    (harr : ∀ k l, (arrive k l).Perm l) (gs : List (List ℕ)) (m : ℕ) (st : State)
    (ok : Ok np gs m st) (dead : List ℕ) (hdn : dead.Nodup) (hd : ∀ p ∈ dead, p ∈ gs.flatten) :
    ∃ fr st', recover np arrive st dead (failed gs dead).length = some (fr, st') ∧
      (fr = true ↔ (waiting st).length < dead.length) ∧
      (fr = false → ∃ f : ℕ → ℕ, (∀ p, p ∉ dead → f p = p) ∧ (∀ p ∈ dead, f p ∈ waiting st) ∧
        Ok np (gs.map fun g => g.map f) m st' ∧
        ∀ p, p ∈ waiting st' ↔ p ∈ waiting st ∧ ∀ q ∈ dead, f q ≠ p) ∧
      (fr = true → Ok np (intact gs dead) m st' ∧
        ∀ p, p ∈ waiting st' ↔
          p ∈ waiting st ∨ (p ∉ dead ∧ ∃ g ∈ gs, p ∈ g ∧ ∃ q ∈ g, q ∈ dead)) := by
  have hdW : ∀ p ∈ dead, p ∈ st.world := fun p hp => by rw [ok.world]; simp [hd p hp]
  have hwait : ∀ p, p ∈ waiting st ↔ p ∈ st.spare ∧ p ∉ st.world := fun p => by
    unfold waiting
    rw [List.mem_filter, decide_eq_true_eq]
  have hsn : (shrink dead st.spare).Nodup := ok.spare_nodup.filter _
  -- the signalled processes
  have hreu : ∀ r ∈ st.reusable, r < st.spare.length := fun r hr => by
    obtain ⟨p, hp, -⟩ := (ok.reusable r).1 hr
    exact (List.getElem?_eq_some_iff.1 hp).1
  have hsigm : ∀ p, p ∈ at' st.spare st.reusable ↔ p ∈ st.spare ∧ p ∉ st.world := by
    intro p
    unfold at'
    rw [List.mem_map]
    constructor
    · rintro ⟨r, hr, rfl⟩
      obtain ⟨p, hp, hn⟩ := (ok.reusable r).1 hr
      rw [List.getD_eq_getElem?_getD, hp]
      exact ⟨List.mem_of_getElem? hp, hn⟩
    · rintro ⟨h1, h2⟩
      obtain ⟨r, hr, rfl⟩ := List.mem_iff_getElem.1 h1
      refine ⟨r, (ok.reusable r).2 ⟨_, List.getElem?_eq_getElem hr, h2⟩, ?_⟩
      rw [List.getD_eq_getElem?_getD, List.getElem?_eq_getElem hr, Option.getD_some]
  have hsign : (at' st.spare st.reusable).Nodup := by
    refine ok.reusable_nodup.map_on fun r hr s hs h => ?_
    simp only [List.getD_eq_getElem?_getD, List.getElem?_eq_getElem (hreu r hr),
      List.getElem?_eq_getElem (hreu s hs), Option.getD_some] at h
    exact ok.spare_nodup.getElem_inj_iff.1 h
  have hsigd : ∀ p ∈ at' st.spare st.reusable, p ∉ dead := fun p hp h =>
    ((hsigm p).1 hp).2 (hdW p h)
  have hwl : (waiting st).length = st.reusable.length := by
    rw [← length_at' st.spare st.reusable]
    refine List.Perm.length_eq ((List.perm_ext_iff_of_nodup (ok.spare_nodup.filter _) hsign).2 ?_)
    intro p
    exact (hwait p).trans (hsigm p).symm
  have hsl := length_at' st.spare st.reusable
  have hproc := procsAt_eq st.spare st.reusable hreu
  generalize hsig : at' st.spare st.reusable = sig at *
  have hfl : sig.filter (· ∉ dead) = sig := List.filter_eq_self.2 fun p hp => by
    simpa using hsigd p hp
  have hr1 : ∀ p ∈ st.world, spareRanks (shrink dead st.spare) sig st.rank p = st.rank p := fun p hp => by
    unfold spareRanks
    rw [if_neg]
    exact fun h => ((hsigm p).1 h).2 hp
  have hr2 : ∀ p ∈ sig, spareRanks (shrink dead st.spare) sig st.rank p =
      (shrink dead st.spare).idxOf p := fun p hp => by
    unfold spareRanks
    rw [if_pos hp]
  generalize hrank1 : spareRanks (shrink dead st.spare) sig st.rank = rank1 at *
  -- the number of the dead
  have hdp := filter_dead_perm ok.nodup hdn hdW
  have hnum : st.world.length - (shrink dead st.world).length = dead.length := by
    have h1 := length_filter_add st.world (· ∈ dead)
    have h2 := hdp.length_eq
    unfold shrink
    omega
  -- the messages
  have hF : (arrive 0 ((st.world.filter (· ∈ dead)).map st.rank)).Perm (dead.map st.rank) :=
    (harr 0 _).trans (hdp.map _)
  have hF' := recvAny_eq (harr 0 ((st.world.filter (· ∈ dead)).map st.rank)) (n := dead.length)
    (by rw [List.length_map, hdp.length_eq])
  have hll := length_lost hnp ok hdn hd
  have hlW : ∀ p ∈ lost np st dead, p ∈ st.world := fun p hp => List.mem_of_mem_filter hp
  have hln : (lost np st dead).Nodup := ok.nodup.filter _
  have hN : (arrive 1 ((lost np st dead).map rank1)).Perm
      ((lost np st dead).map fun p => st.world.idxOf p) := by
    refine (harr 1 _).trans (List.Perm.of_eq (List.map_congr_left fun p hp => ?_))
    rw [hr1 p (hlW p hp), ok.rank p (hlW p hp)]
  have hN' := recvAny_eq (harr 1 ((lost np st dead).map rank1))
    (n := (failed gs dead).length * np - dead.length) (by rw [List.length_map]; omega)
  have hR : (arrive 2 (sig.map rank1)).Perm
      (sig.map fun p => (shrink dead st.spare).idxOf p) := by
    exact (harr 2 _).trans (List.Perm.of_eq (List.map_congr_left fun p hp => hr2 p hp))
  have hR' := recvAny_eq (harr 2 (sig.map rank1)) (n := st.reusable.length)
    (by rw [List.length_map, hsl])
  have hsigS : ∀ p ∈ sig, p ∈ shrink dead st.spare := fun p hp =>
    (ok.alive hd p).2 (.inr ((hsigm p).1 hp))
  have hRlen := hR.length_eq
  rw [List.length_map, hsl] at hRlen
  generalize hFe : arrive 0 ((st.world.filter (· ∈ dead)).map st.rank) = F at *
  generalize hNe : arrive 1 ((lost np st dead).map rank1) = N at *
  generalize hRe : arrive 2 (sig.map rank1) = R at *
  obtain ⟨hRlt, hRp⟩ := at'_perm hR hsigS
  obtain ⟨hNlt, hNp⟩ := at'_perm hN hlW
  have hFl : F.length = dead.length := by rw [hF.length_eq, List.length_map]
  -- the size of the communicators
  have hsize : (shrink dead st.spare).length = (shrink dead st.world).length + st.reusable.length := by
    have : (shrink dead st.spare).Perm (shrink dead st.world ++ sig) := by
      have hnd : (shrink dead st.world ++ sig).Nodup := by
        refine List.nodup_append.2 ⟨ok.nodup.filter _, hsign, fun p hp q hq h => ?_⟩
        subst h
        exact ((hsigm p).1 hq).2 (List.mem_of_mem_filter hp)
      refine (List.perm_ext_iff_of_nodup hsn hnd).2 fun p => ?_
      rw [ok.alive hd, List.mem_append, hsigm]
      unfold shrink
      rw [List.mem_filter, decide_eq_true_eq]
    rw [this.length_eq, List.length_append, hsl]
  have hcond : ¬ ∃ p ∈ waiting st, p ∉ sig := by
    rintro ⟨p, hp, hn⟩
    exact hn ((hsigm p).2 ((hwait p).1 hp))
  unfold recover
  simp only [Option.bind_eq_bind, Option.pure_def]
  rw [hproc, Option.bind_some, if_neg hcond]
  rw [hfl]
  simp only [hrank1]
  rw [hnum, hFe, hNe, hRe, hF', Option.bind_some, if_neg (show ¬ (failed gs dead).length * np < dead.length by omega),
    hN', Option.bind_some, hR', Option.bind_some]
  by_cases hc : dead.length ≤ st.reusable.length
  · rw [if_pos (show dead.length ≤ (shrink dead st.spare).length - (shrink dead st.world).length by omega),
      if_neg (show ¬ R.length < F.length by omega)]
    rw [procsAt_eq _ _ fun r hr => hRlt r (List.mem_of_mem_take hr), Option.bind_some,
      procsAt_eq _ _ fun r hr => hRlt r (List.mem_of_mem_drop hr), Option.bind_some]
    have hRm : ∀ p, p ∈ at' (shrink dead st.spare) R ↔ p ∈ st.spare ∧ p ∉ st.world := fun p => by
      rw [hRp.mem_iff, hsigm]
    have hRn : (at' (shrink dead st.spare) R).Nodup := hRp.nodup_iff.2 hsign
    obtain ⟨f, hf1, hf2, hfn, hsp⟩ := replaced ok hdn hd R F rank1 hRn hRm hF (by omega) hr1
    have hUX : at' (shrink dead st.spare) (R.take F.length) ++
        at' (shrink dead st.spare) (R.drop F.length) = at' (shrink dead st.spare) R := by
      rw [← at'_append, List.take_append_drop]
    have hcond2 : ¬ ∃ p ∈ shrink dead st.spare, p ∉ at' (shrink dead st.spare) (R.drop F.length) ∧
        p ∉ at' (shrink dead st.spare) (R.take F.length) ∧ p ∉ st.world := by
      rintro ⟨p, h1, h2, h3, h4⟩
      have := (hRm p).2 ⟨List.mem_of_mem_filter h1, h4⟩
      rw [← hUX, List.mem_append] at this
      exact this.elim h3 h2
    have hfm : f m = m := hf1 m fun h => ok.manager_notMem (hd m h)
    have hw : st.world.map f = (gs.map fun g => g.map f).flatten ++ [m] := by
      rw [ok.world, List.map_append, List.map_flatten, List.map_cons, hfm, List.map_nil]
    have hsz : ∀ g ∈ gs.map fun g => g.map f, g.length = np := fun g hg => by
      obtain ⟨g', hg', rfl⟩ := List.mem_map.1 hg
      rw [List.length_map, ok.size g' hg']
    rw [if_neg hcond2, hsp]
    unfold finish
    rw [if_pos (by
      rw [hw, List.length_append, length_flatten_const np _ hsz, List.length_singleton,
        Nat.add_sub_cancel, Nat.mul_mod_left]), Option.bind_some]
    have hmem : ∀ p, p ∈ st.world.map f ↔ p ∈ shrink dead st.spare ∧
        p ∉ at' (shrink dead st.spare) (R.drop F.length) := fun p => by
      rw [← hsp]
      unfold split
      rw [List.mem_insertionSort, List.mem_filter, decide_eq_true_eq]
    refine ⟨_, _, rfl, ?_, fun _ => ⟨f, hf1, fun p hp => (hwait _).2 (hf2 p hp), ?_, fun p => ?_⟩, by simp⟩
    · simp only [Bool.false_eq_true, false_iff]
      omega
    · refine ⟨hw, hsz, hfn, hsn, fun p hp => ((hmem p).1 hp).1, ok.shrink_last hd, fun p hp => ?_, ?_,
        fun r => ?_⟩
      · simp only
        rw [if_pos hp]
      · exact (at'_nodup hRn).sublist (List.drop_sublist _ _)
      · rw [mem_at' hsn fun r hr => hRlt r (List.mem_of_mem_drop hr)]
        constructor
        · rintro ⟨p, hp, hr⟩
          exact ⟨p, hr, fun h => ((hmem p).1 h).2 hp⟩
        · rintro ⟨p, hr, hp⟩
          refine ⟨p, ?_, hr⟩
          by_contra hn
          exact hp ((hmem p).2 ⟨List.mem_of_getElem? hr, hn⟩)
    · unfold waiting
      simp only [List.mem_filter, decide_eq_true_eq]
      rw [ok.alive hd]
      constructor
      · rintro ⟨h1 | h1, h2⟩
        · exact absurd (List.mem_map.2 ⟨p, h1.1, hf1 p h1.2⟩) h2
        · exact ⟨h1, fun q hq he => h2 (List.mem_map.2 ⟨q, hdW q hq, he⟩)⟩
      · rintro ⟨h1, h2⟩
        refine ⟨.inr h1, fun h => ?_⟩
        obtain ⟨q, hq, he⟩ := List.mem_map.1 h
        by_cases hqd : q ∈ dead
        · exact h2 q hqd he
        · rw [hf1 q hqd] at he
          subst he
          exact h1.2 hq
  · rw [if_neg (show ¬ dead.length ≤
      (shrink dead st.spare).length - (shrink dead st.world).length by omega)]
    rw [procsAt_eq _ _ hNlt, Option.bind_some, procsAt_eq _ _ hRlt, Option.bind_some]
    have hLm : ∀ p, p ∈ at' st.world N ↔ p ∈ lost np st dead := fun p => hNp.mem_iff
    have hXm : ∀ p, p ∈ at' (shrink dead st.spare) R ↔ p ∈ st.spare ∧ p ∉ st.world := fun p => by
      rw [hRp.mem_iff, hsigm]
    have hLl := length_at' st.world N
    generalize at' st.world N = L at *
    have hM : (arrive 3 (L.map (spareRanks (shrink dead st.spare) L rank1))).Perm
        (L.map fun p => (shrink dead st.spare).idxOf p) := by
      refine (harr 3 _).trans (List.Perm.of_eq (List.map_congr_left fun p hp => ?_))
      unfold spareRanks
      rw [if_pos hp]
    have hM' := recvAny_eq (harr 3 (L.map (spareRanks (shrink dead st.spare) L rank1))) (n := N.length)
      (by rw [List.length_map, hLl])
    generalize arrive 3 (L.map (spareRanks (shrink dead st.spare) L rank1)) = M at *
    have hlostS : ∀ p ∈ lost np st dead, p ∈ shrink dead st.spare := fun p hp =>
      (ok.alive hd p).2 (.inl ⟨hlW p hp, ((mem_lost hnp ok hd p).1 hp).1⟩)
    obtain ⟨hMlt, hMp⟩ := at'_perm hM fun p hp => hlostS p ((hLm p).1 hp)
    rw [hM', Option.bind_some]
    have hcond2 : ¬ ∃ p ∈ shrink dead st.spare, p ∉ at' (shrink dead st.spare) R ∧ p ∉ L ∧
        p ∉ st.world := by
      rintro ⟨p, h1, h2, -, h4⟩
      exact h2 ((hXm p).2 ⟨List.mem_of_mem_filter h1, h4⟩)
    obtain ⟨hnd, hsp⟩ := removed hnp ok hd _ L (spareRanks (shrink dead st.spare) L rank1) hXm hLm
      fun p hp hn => by
        unfold spareRanks
        rw [if_neg hn, hr1 p hp]
    have hsz : ∀ g ∈ intact gs dead, g.length = np := fun g hg => ok.size g (List.mem_of_mem_filter hg)
    rw [if_neg hcond2, hsp]
    unfold finish
    rw [if_pos (by
      rw [List.length_append, length_flatten_const np _ hsz, List.length_singleton,
        Nat.add_sub_cancel, Nat.mul_mod_left]), Option.bind_some]
    have hmem := intact_iff hnp ok hd
    have hall : ∀ r ∈ R ++ M, r < (shrink dead st.spare).length := fun r hr =>
      (List.mem_append.1 hr).elim (hRlt r) (hMlt r)
    have hRM : (at' (shrink dead st.spare) (R ++ M)).Perm (sig ++ lost np st dead) := by
      rw [at'_append]
      exact hRp.append (hMp.trans hNp)
    have hRMm : ∀ p, p ∈ at' (shrink dead st.spare) (R ++ M) ↔ p ∈ shrink dead st.spare ∧
        p ∉ (intact gs dead).flatten ++ [m] := fun p => by
      rw [hRM.mem_iff, List.mem_append, hsigm, hmem, ok.alive hd]
      constructor
      · rintro (h | h)
        · exact ⟨.inr h, fun h' => h.2 h'.1.1⟩
        · exact ⟨.inl ⟨hlW p h, ((mem_lost hnp ok hd p).1 h).1⟩, fun h' => h'.2 h⟩
      · rintro ⟨h | h, h'⟩
        · right
          by_contra hn
          exact h' ⟨h, hn⟩
        · exact .inl h
    refine ⟨_, _, rfl, ?_, by simp, fun _ => ⟨?_, fun p => ?_⟩⟩
    · simp only [true_iff]
      omega
    · refine ⟨rfl, hsz, hnd, hsn, fun p hp => ?_, ok.shrink_last hd, fun p hp => ?_, ?_, fun r => ?_⟩
      · exact (ok.alive hd p).2 (.inl ((hmem p).1 hp).1)
      · simp only
        rw [if_pos hp]
      · refine at'_nodup (hRM.nodup_iff.2 (List.nodup_append.2 ⟨hsign, hln, fun p hp q hq h => ?_⟩))
        subst h
        exact ((hsigm p).1 hp).2 (hlW p hq)
      · rw [mem_at' hsn hall]
        constructor
        · rintro ⟨p, hp, hr⟩
          exact ⟨p, hr, ((hRMm p).1 hp).2⟩
        · rintro ⟨p, hr, hp⟩
          exact ⟨p, (hRMm p).2 ⟨List.mem_of_getElem? hr, hp⟩, hr⟩
    · rw [hwait, ← mem_lost hnp ok hd, ← hsigm, ← List.mem_append, ← hRM.mem_iff, hRMm]
      unfold waiting
      simp only [List.mem_filter, decide_eq_true_eq]

/-- The reserve of one process, the groups `[0, 1]`, `[2, 3]`, `[4, 5]` and the manager 9. -/
def exampleState : State :=
  ⟨[0, 1, 2, 3, 7, 4, 5, 9], [0, 1, 2, 3, 4, 5, 9], fun p => [0, 1, 2, 3, 4, 5, 9].idxOf p, [4]⟩

example : Ok 2 [[0, 1], [2, 3], [4, 5]] 9 exampleState where
  world := rfl
  size := by decide
  nodup := by decide
  spare_nodup := by decide
  sub := by decide
  last := ⟨[0, 1, 2, 3, 7, 4, 5], rfl⟩
  rank := fun _ _ => rfl
  reusable_nodup := by decide
  reusable := by
    intro r
    by_cases h : r < 8
    · interval_cases r <;> simp [exampleState]
    · rw [List.getElem?_eq_none (show exampleState.spare.length ≤ r by
        simp only [exampleState, List.length_cons, List.length_nil]; omega)]
      simp only [exampleState, List.mem_singleton, reduceCtorEq, false_and, exists_false, iff_false]
      omega

/-- One process dies and is replaced by 7; two processes die and their groups leave. The messages arrive in
the reverse order. -/
example : ((recover 2 (fun _ l => l.reverse) exampleState [2] 1).map fun x => (x.1, x.2.world)) =
      some (false, [0, 1, 7, 3, 4, 5, 9]) ∧
    ((recover 2 (fun _ l => l.reverse) exampleState [2, 5] 2).map
        fun x => (x.1, x.2.spare, x.2.world, x.2.reusable)) =
      some (true, [0, 1, 3, 7, 4, 9], [0, 1, 9], [3, 2, 4]) := by
  decide

/-- The list of groups of the manager after the recovery. Before it, group number `i` has the master rank
`i` and the status FAIL exactly if one of its processes is dead. Afterwards the groups in the list are those
in the world communicator, none has the status FAIL, and the master rank of every group is again its number,
which is the rank of its master in the new global communicator (C39). -/
theorem C80_groups (gs : List (List ℕ)) (dead : List ℕ) (fr : Bool) :
    updateGroups fr (gs.zipIdx.map fun g => (g.1, decide (∃ q ∈ g.1, q ∈ dead), g.2)) =
      (if fr then intact gs dead else gs).zipIdx.map fun g => (g.1, false, g.2) := by
  cases fr with
  | false => simp [updateGroups, Function.comp_def]
  | true =>
    have hfilter : ∀ n, ((gs.zipIdx n).map fun g => (g.1, decide (∃ q ∈ g.1, q ∈ dead), g.2)).filter
        (fun g => !g.2.1) =
        ((gs.zipIdx n).filter fun g => decide (∀ q ∈ g.1, q ∉ dead)).map fun g => (g.1, false, g.2) := by
      intro n
      induction gs generalizing n with
      | nil => rfl
      | cons g gs ih =>
        rw [List.zipIdx_cons, List.map_cons, List.filter_cons, List.filter_cons, ih]
        by_cases h : ∃ q ∈ g, q ∈ dead
        · rw [if_neg (by simp [h]), if_neg (by simpa using h)]
        · rw [if_pos (by simp [h]), if_pos (by simpa using h), List.map_cons]
          simp [h]
    have hfst : ∀ n, ((gs.zipIdx n).filter fun g => decide (∀ q ∈ g.1, q ∉ dead)).map (fun g => g.1) =
        intact gs dead := by
      clear hfilter
      intro n
      unfold intact
      induction gs generalizing n with
      | nil => rfl
      | cons g gs ih =>
        rw [List.zipIdx_cons, List.filter_cons, List.filter_cons]
        by_cases h : ∀ q ∈ g, q ∉ dead
        · rw [if_pos (by simpa using h), if_pos (by simpa using h), List.map_cons, ih]
        · rw [if_neg (by simpa using h), if_neg (by simpa using h), ih]
    have hzip : ∀ (l : List (List ℕ × ℕ)) (n : ℕ),
        ((l.map fun g => ((g.1, false, g.2) : List ℕ × Bool × ℕ)).zipIdx n).map
          (fun g => ((g.1.1, g.1.2.1, g.2) : List ℕ × Bool × ℕ)) =
        ((l.map fun g => g.1).zipIdx n).map fun g => (g.1, false, g.2) := by
      intro l
      induction l with
      | nil => simp
      | cons a l ih =>
        intro n
        simp only [List.map_cons, List.zipIdx_cons, ih]
    unfold updateGroups
    rw [if_pos rfl, if_pos rfl, hfilter 0, hzip, hfst]

/-- If a process dies that waits in reserve, the next recovery does not end: the manager waits for a message
from every process that it believes to be in reserve (l.507-517, called in l.770; "toDO reusableRanks might
be outdated"). -/
theorem C80_dead_spare_violated :
    recover 2 (fun _ l => l) exampleState [2, 7] 1 = none ∧
    recover 2 (fun _ l => l) exampleState [7] 0 = none := by
  constructor <;> rfl

end Verif.Recovery
