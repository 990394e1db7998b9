import Verif.Lemmas.Selalib
import Verif.Lemmas.SchemeFile
import Verif.Props.WorkDistribution

/-!
# The Selalib example: values of the placeholders, process groups, decimal text
-/

namespace Verif.Selalib

/-! ### Values of the placeholders -/

theorem mem_dimSubs_value {d : ℕ} {rest : List (ℕ × ℕ)} {kv : List Char × List Char} (h : kv ∈ dimSubs d rest) :
    ∃ e x, rest[e]? = some x ∧ (kv = ("nx".toList ++ decimal (d + e + 1), decimal x.1) ∨
      kv = ("p".toList ++ decimal (d + e + 1), decimal x.2)) := by
  induction rest generalizing d with
  | nil => simp [dimSubs] at h
  | cons x rest ih =>
    rw [dimSubs, List.mem_cons, List.mem_cons] at h
    rcases h with rfl | rfl | h
    · exact ⟨0, x, rfl, Or.inl rfl⟩
    · exact ⟨0, x, rfl, Or.inr rfl⟩
    · obtain ⟨e, y, h1, h2⟩ := ih h
      refine ⟨e + 1, y, by simpa using h1, ?_⟩
      rw [show d + (e + 1) + 1 = d + 1 + e + 1 from by omega]
      exact h2

theorem dim_key {d : ℕ} {rest : List (ℕ × ℕ)} {e : ℕ} (he : e < rest.length) :
    "nx".toList ++ decimal (d + e + 1) ∈ (dimSubs d rest).map Prod.fst ∧
      "p".toList ++ decimal (d + e + 1) ∈ (dimSubs d rest).map Prod.fst := by
  induction rest generalizing d e with
  | nil => simp at he
  | cons x rest ih =>
    rw [dimSubs, List.map_cons, List.map_cons]
    cases e with
    | zero => exact ⟨List.mem_cons_self, List.mem_cons_of_mem _ List.mem_cons_self⟩
    | succ e =>
      have := ih (d := d + 1) (e := e) (by simpa using he)
      rw [show d + (e + 1) + 1 = d + 1 + e + 1 from by omega]
      exact ⟨List.mem_cons_of_mem _ (List.mem_cons_of_mem _ this.1),
        List.mem_cons_of_mem _ (List.mem_cons_of_mem _ this.2)⟩

/-- What the placeholders stand for: the settings, and `nx<d>`, `p<d>` with `d` counted from 1 for resolution and
processes of each dimension. -/
structure Values (S : Settings) (resolution : List ℕ) (value : List Char → Option (List Char)) : Prop where
  nsteps : value "nsteps".toList = some (decimal S.nsteps)
  dt : value "dt".toList = some (fixedText S.dt)
  nDiagnostics : value "n_diagnostics".toList = some (decimal S.nDiagnostics)
  nameDiagnostics : value "name_diagnostics".toList = some S.nameDiagnostics
  nx : ∀ d r, resolution[d]? = some r → value ("nx".toList ++ decimal (d + 1)) = some (decimal r)
  p : ∀ d q, S.p[d]? = some q → value ("p".toList ++ decimal (d + 1)) = some (decimal q)
  other : ∀ k, k ∉ names resolution.length → value k = none

theorem lookup_value {subs : List (List Char × List Char)} {value : List Char → Option (List Char)}
    (h : ∀ kv ∈ subs, value kv.1 = some kv.2) (h0 : ∀ k, k ∉ subs.map Prod.fst → value k = none)
    (k : List Char) : subs.lookup k = value k := by
  by_cases hk : k ∈ subs.map Prod.fst
  · clear h0
    induction subs with
    | nil => simp at hk
    | cons kv subs ih =>
      obtain ⟨k', v⟩ := kv
      by_cases e : k = k'
      · subst e
        rw [List.lookup_cons_self]
        exact (h (k, v) (by simp)).symm
      · rw [List.lookup_cons, show (k == k') = false from by simpa using e]
        refine ih (fun kv hkv => h kv (by simp [hkv])) ?_
        rw [List.map_cons, List.mem_cons] at hk
        exact hk.resolve_left e
  · rw [h0 k hk]
    clear h h0
    induction subs with
    | nil => rfl
    | cons kv subs ih =>
      obtain ⟨k', v⟩ := kv
      rw [List.map_cons, List.mem_cons, not_or] at hk
      rw [List.lookup_cons, show (k == k') = false from by simpa using hk.1]
      exact ih hk.2

theorem values_lookup {S : Settings} {resolution : List ℕ} (hlen : resolution.length = S.p.length)
    {value : List Char → Option (List Char)} (hv : Values S resolution value) (k : List Char) :
    (subsOf S resolution).lookup k = value k := by
  refine lookup_value ?_ ?_ k
  · intro kv h
    unfold subsOf at h
    rw [List.mem_append] at h
    rcases h with h | h
    · simp only [List.mem_cons, List.not_mem_nil, or_false] at h
      rcases h with rfl | rfl | rfl | rfl
      · exact hv.nsteps
      · exact hv.dt
      · exact hv.nDiagnostics
      · exact hv.nameDiagnostics
    · obtain ⟨e, x, h1, h2⟩ := mem_dimSubs_value h
      rw [List.getElem?_zip_eq_some] at h1
      rw [Nat.zero_add] at h2
      rcases h2 with rfl | rfl
      · exact hv.nx e x.1 h1.1
      · exact hv.p e x.2 h1.2
  · intro k hk
    refine hv.other k fun h => hk ?_
    unfold names at h
    unfold subsOf
    rw [List.map_append, List.mem_append]
    rw [List.mem_append] at h
    rcases h with h | h
    · exact Or.inl h
    · right
      obtain ⟨d, hd, h⟩ := List.mem_flatMap.1 h
      have := dim_key (d := 0) (rest := resolution.zip S.p) (e := d)
        (by rw [List.length_zip, ← hlen, Nat.min_self]; exact List.mem_range.1 hd)
      rw [Nat.zero_add] at this
      simp only [List.mem_cons, List.not_mem_nil, or_false] at h
      rcases h with rfl | rfl
      · exact this.1
      · exact this.2

/-- A template whose placeholders are found: each occurs once, and no name that is replaced is the beginning of
another placeholder. -/
structure GoodTemplate (dims : ℕ) (tp : List Piece) : Prop where
  ok : okTemplate tp = true
  once : (holes tp).Nodup
  noPrefix : ∀ k ∈ names dims, ∀ k' ∈ holes tp, k <+: k' → k = k'

theorem adapt_value {S : Settings} (hname : '$' ∉ S.nameDiagnostics) {tp : List Piece}
    (ht : GoodTemplate S.p.length tp) {resolution : List ℕ} (hlen : resolution.length = S.p.length)
    {value : List Char → Option (List Char)} (hv : Values S resolution value) :
    adaptParameterFile S (render tp) resolution = .ok (fill value tp) := by
  rw [adapt_fill S hname tp ht.ok ht.once resolution hlen (by rw [hlen]; exact ht.noPrefix)]
  rw [fill_congr (g := value) fun k _ => values_lookup hlen hv k]

/-! ### Groups -/

theorem balanced_nonempty (dof : ℕ → ℕ) (n G : ℕ) (hG : 1 ≤ G) (hle : G ≤ n) (order : List ℕ)
    (ho : order.Perm (List.range n)) (hpos : ∀ i < n, 0 < dof i) :
    (∀ g < G, getLoadBalancedTasks dof order G g ≠ []) ∧
      ∀ g, ∀ i ∈ getLoadBalancedTasks dof order G g, i < n := by
  have hmemo : ∀ i ∈ order, i < n := fun i hi => by simpa using ho.mem_iff.1 hi
  obtain ⟨hlen1, -, -, a4, a5, -⟩ := loadBalanceLoop_spec dof (order.map dof).sum order
    (fun x hx => List.single_le_sum (by simp) _ (List.mem_map_of_mem hx))
    (List.replicate G 0) (by intro hc; have := congrArg List.length hc; simp at this; omega) (by
      intro g hg
      simp at hg
      simp [List.getD_eq_getElem?_getD, hg])
  have hnz := SchemeFile.loadBalanceLoop_nonempty dof order (fun i hi => hpos i (hmemo i hi)) (List.replicate G 0)
    (by intro hc; have := congrArg List.length hc; simp at this; omega)
    (by rw [List.count_replicate_self, ho.length_eq, List.length_range]; exact hle)
  constructor
  · intro g hgr h0
    have h4 := a4 g (by simpa using hgr)
    have h5 : getLoadBalancedTasks dof order G g = [] := h0
    unfold getLoadBalancedTasks at h5
    rw [h5] at h4
    rw [List.length_replicate] at hlen1
    rw [List.getD_eq_getElem _ _ (by rw [hlen1]; exact hgr)] at h4
    refine hnz ?_
    have : (loadBalanceLoop dof order (List.replicate G 0)).1[g]'(by rw [hlen1]; exact hgr) = 0 := by
      rw [h4]
      simp [List.getD_eq_getElem?_getD, hgr]
    have hm : (loadBalanceLoop dof order (List.replicate G 0)).1[g]'(by rw [hlen1]; exact hgr) ∈
        (loadBalanceLoop dof order (List.replicate G 0)).1 := List.getElem_mem _
    rw [this] at hm
    exact hm
  · intro g i hi
    refine hmemo i ?_
    unfold getLoadBalancedTasks at hi
    obtain ⟨p, hp, rfl⟩ := List.mem_map.1 hi
    rw [← a5]
    exact List.mem_map_of_mem (List.mem_filter.1 hp).1

/-- A group does not have the tasks of another one. -/
theorem balanced_fewer (dof : ℕ → ℕ) (n G : ℕ) (hG : 2 ≤ G) (hle : G ≤ n) (order : List ℕ)
    (ho : order.Perm (List.range n)) (hpos : ∀ i < n, 0 < dof i) (g : ℕ) (hg : g < G) :
    (getLoadBalancedTasks dof order G g).length < n := by
  obtain ⟨h1, h2⟩ := balanced_nonempty dof n G (by omega) hle order ho hpos
  obtain ⟨g', hg', hne⟩ : ∃ g', g' < G ∧ g' ≠ g := by
    by_cases e : g = 0
    · exact ⟨1, by omega, by omega⟩
    · exact ⟨0, by omega, fun h => e h.symm⟩
  obtain ⟨x, hx⟩ := List.exists_mem_of_ne_nil _ (h1 g' hg')
  have hxn := h2 g' x hx
  obtain ⟨⟨g0, -, hu⟩, hnd⟩ := C08_load_balanced_unique dof n G (by omega) order ho x hxn
  have hxg : x ∉ getLoadBalancedTasks dof order G g := by
    intro h
    exact hne ((hu g' ⟨hg', hx⟩).trans (hu g ⟨hg, h⟩).symm)
  have hsub : List.Subperm (x :: getLoadBalancedTasks dof order G g) (List.range n) := by
    refine List.subperm_of_subset (List.nodup_cons.2 ⟨hxg, hnd g⟩) ?_
    intro y hy
    rw [List.mem_range]
    rcases List.mem_cons.1 hy with rfl | hy
    · exact hxn
    · exact h2 g y hy
  have := hsub.length_le
  simp only [List.length_cons, List.length_range] at this
  omega

theorem groupGrids_eq (s : Scheme) (hlen : s.combiSpaces.length = s.coefficients.length) (ts : List ℕ)
    (h : ∀ i ∈ ts, i < s.combiSpaces.length) :
    groupGrids s ts = ts.map fun i => ⟨s.combiSpaces.getD i [], s.coefficients.getD i 0, i⟩ := by
  unfold groupGrids
  induction ts with
  | nil => rfl
  | cons i ts ih =>
    have hi := h i (by simp)
    rw [List.filterMap_cons, ih fun j hj => h j (by simp [hj])]
    rw [List.getElem?_eq_getElem hi, List.getElem?_eq_getElem (hlen ▸ hi)]
    simp [List.getD_eq_getElem?_getD, List.getElem?_eq_getElem hi, List.getElem?_eq_getElem (hlen ▸ hi)]

/-- The folders of some tasks. -/
theorem create_ok (S : Settings) (template : List Char) (text : List ℕ → List Char) (spaces : List (List ℕ))
    (hl : ∀ l ∈ spaces, l.length = S.p.length ∧
      adaptParameterFile S template (l.map fun x => 2 ^ x) = .ok (text l))
    (ts : List ℕ) (h : ∀ i ∈ ts, i < spaces.length) (hnd : ts.Nodup) (F : Folders) :
    ∃ F', createTaskFolders S template (ts.map fun i => spaces.getD i []) ts F = .ok F' ∧
      (∀ i ∈ ts, F' i = some (text (spaces.getD i []))) ∧ ∀ i, i ∉ ts → F' i = F i := by
  unfold createTaskFolders
  rw [if_pos (by simp)]
  have hz : (ts.map fun i => spaces.getD i []).zip ts = ts.map fun i => (spaces.getD i [], i) := by
    clear h hnd
    induction ts with
    | nil => rfl
    | cons i ts ih => rw [List.map_cons, List.zip_cons_cons, ih, List.map_cons]
  have hm : ∀ i ∈ ts, spaces.getD i [] ∈ spaces := by
    intro i hi
    rw [List.getD_eq_getElem _ _ (h i hi)]
    exact List.getElem_mem _
  have hd : ∀ i ∈ ts, (spaces.getD i []).length = ((ts.map fun i => spaces.getD i []).headD []).length := by
    cases ts with
    | nil => simp
    | cons a ts =>
      intro i hi
      rw [(hl _ (hm i hi)).1]
      exact (hl _ (hm a (by simp))).1.symm
  obtain ⟨F', e, a1, a2⟩ := createLoop_ok S template ((ts.map fun i => spaces.getD i []).headD []).length text
    ((ts.map fun i => spaces.getD i []).zip ts) (by
      rw [hz]
      intro g hg
      obtain ⟨i, hi, rfl⟩ := List.mem_map.1 hg
      exact ⟨hd i hi, (hl _ (hm i hi)).2⟩) (by
      rw [hz, List.map_map, show (Prod.snd ∘ fun i => (spaces.getD i [], i)) = id from rfl, List.map_id]
      exact hnd) F
  refine ⟨F', e, ?_, ?_⟩
  · intro i hi
    refine a1 (spaces.getD i [], i) ?_
    rw [hz]
    exact List.mem_map.2 ⟨i, hi, rfl⟩
  · intro i hi
    refine a2 i ?_
    rw [hz, List.map_map, show (Prod.snd ∘ fun i => (spaces.getD i [], i)) = id from rfl, List.map_id]
    exact hi

/-- The files of all groups. -/
theorem groups_ok (S : Settings) (template : List Char) (text : List ℕ → List Char) (s : Scheme)
    (hlen : s.combiSpaces.length = s.coefficients.length) (hc : ℕ → Bool)
    (hl : ∀ l ∈ s.combiSpaces, l.length = S.p.length ∧
      adaptParameterFile S template (l.map fun x => 2 ^ x) = .ok (text l))
    (groups : List (List ℕ)) (h : ∀ g ∈ groups, g ≠ [] ∧ g.Nodup ∧ ∀ i ∈ g, i < s.combiSpaces.length)
    (F : Folders) :
    ∃ F', groupsFiles S template s false hc none groups F = .ok F' ∧
      (∀ g ∈ groups, ∀ i ∈ g, F' i = some (text (s.combiSpaces.getD i []))) ∧
      ∀ i, (∀ g ∈ groups, i ∉ g) → F' i = F i := by
  induction groups generalizing F with
  | nil => exact ⟨F, rfl, by simp, fun _ _ => rfl⟩
  | cons g gs ih =>
    obtain ⟨h1, h2, h3⟩ := h g (by simp)
    obtain ⟨F1, e1, b1, b2⟩ := create_ok S template text s.combiSpaces hl g h3 h2 F
    obtain ⟨F', e, a1, a2⟩ := ih (fun g' hg' => h g' (by simp [hg'])) F1
    refine ⟨F', ?_, ?_, ?_⟩
    · rw [groupsFiles]
      unfold groupFiles
      rw [groupGrids_eq s hlen g h3]
      simp only [List.map_map, List.length_map]
      rw [if_neg (by simpa using h1), if_neg (by simp)]
      have e1' : createTaskFolders S template (g.map (SelalibTask.level ∘ fun i =>
          ⟨s.combiSpaces.getD i [], s.coefficients.getD i 0, i⟩)) g F = .ok F1 := e1
      rw [e1']
      exact e
    · intro g' hg' i hi
      by_cases hex : ∃ g'' ∈ gs, i ∈ g''
      · obtain ⟨g'', q1, q2⟩ := hex
        exact a1 g'' q1 i q2
      · rw [a2 i fun g'' q1 q2 => hex ⟨g'', q1, q2⟩]
        rcases List.mem_cons.1 hg' with rfl | hg'
        · exact b1 i hi
        · exact absurd ⟨g', hg', hi⟩ hex
    · intro i hi
      rw [a2 i fun g' hg' => hi g' (by simp [hg'])]
      exact b2 i (hi g (by simp))

/-- A restart of all groups does not change folders from `m` on, if no group has more than `m` tasks. -/
theorem groups_restart (S : Settings) (template : List Char) (s : Scheme)
    (hlen : s.combiSpaces.length = s.coefficients.length) (hc : ℕ → Bool) (m : ℕ)
    (hck : ∀ i < m, hc i = true)
    (groups : List (List ℕ))
    (h : ∀ g ∈ groups, g ≠ [] ∧ g.length ≤ m ∧ ∀ i ∈ g, i < s.combiSpaces.length) (F : Folders) :
    ∃ F', groupsFiles S template s true hc none groups F = .ok F' ∧ ∀ i, m ≤ i → F' i = F i := by
  induction groups generalizing F with
  | nil => exact ⟨F, rfl, fun _ _ => rfl⟩
  | cons g gs ih =>
    obtain ⟨h1, h2, h3⟩ := h g (by simp)
    obtain ⟨F1, e1, b1⟩ := restart_ok hc 0 g.length F fun j _ hj => hck j (by omega)
    obtain ⟨F', e, a⟩ := ih (fun g' hg' => h g' (by simp [hg'])) F1
    refine ⟨F', ?_, ?_⟩
    · rw [groupsFiles]
      unfold groupFiles
      rw [groupGrids_eq s hlen g h3]
      simp only [List.length_map]
      rw [if_neg (by simpa using h1), if_pos trivial, e1]
      exact e
    · intro i hi
      rw [a i hi, b1 i, if_neg (by omega)]

/-! ### Decimal text -/

theorem ofDigits_decimal (n : ℕ) : Nat.ofDigitChars 10 (decimal n) 0 = n := by
  unfold decimal
  exact Nat.ofDigitChars_toDigits (by omega) (by omega)

theorem ofDigits_six {n : ℕ} (h : n < 1000000) : Nat.ofDigitChars 10 (sixDigits n) 0 = n := by
  unfold sixDigits
  simp only [List.map_cons, List.map_nil]
  repeat rw [Nat.ofDigitChars_cons_digitChar_of_lt_ten (Nat.mod_lt _ (by omega))]
  rw [Nat.ofDigitChars_nil]
  omega

end Verif.Selalib
