import Verif.Model.FaultMessages
import Verif.Lemmas.Runs
import Mathlib.Data.List.Basic
import Mathlib.Tactic.Common

/-!
# Messages between two processes in the fault simulator: lemmas
-/

namespace Verif.FaultMessages

variable {α : Type}

/-- What was sent stays sent. -/
structure Grows (n n' : Node α) : Prop where
  notes : ∀ p t, n.notes p t <+: n'.notes p t
  data : ∀ p t, n.data p t <+: n'.data p t
  posted : ∀ p t, n.posted p t ≤ n'.posted p t
  sizes : ∀ p t, n.sizes p t <+: n'.sizes p t

theorem Grows.refl (n : Node α) : Grows n n :=
  ⟨fun _ _ => List.prefix_refl _, fun _ _ => List.prefix_refl _, fun _ _ => Nat.le_refl _,
    fun _ _ => List.prefix_refl _⟩

theorem Grows.trans {a b c : Node α} (h : Grows a b) (h' : Grows b c) : Grows a c :=
  ⟨fun p t => (h.notes p t).trans (h'.notes p t), fun p t => (h.data p t).trans (h'.data p t),
    fun p t => Nat.le_trans (h.posted p t) (h'.posted p t), fun p t => (h.sizes p t).trans (h'.sizes p t)⟩

theorem change_prefix {β : Type} (f : ℕ → ℕ → List β) (p t : ℕ) (x : List β) (q u : ℕ) :
    f q u <+: change f p t (f p t ++ x) q u := by
  unfold change
  split_ifs with h
  · rw [h.1, h.2]; exact List.prefix_append _ _
  · exact List.prefix_refl _

theorem change_le (f : ℕ → ℕ → ℕ) (p t : ℕ) (q u : ℕ) : f q u ≤ change f p t (f p t + 1) q u := by
  unfold change
  split_ifs with h
  · rw [h.1, h.2]; exact Nat.le_succ _
  · exact Nat.le_refl _

theorem grows_tell (n : Node α) (p t : ℕ) (a : Note) : Grows n (n.tell p t a) :=
  { Grows.refl n with notes := fun q u => change_prefix n.notes p t [a] q u }

theorem grows_put (n : Node α) (p t : ℕ) (x : List α) : Grows n (n.put p t x) :=
  { Grows.refl n with data := fun q u => change_prefix n.data p t [x] q u }

theorem grows_expect (n : Node α) (p t : ℕ) : Grows n (n.expect p t) :=
  { Grows.refl n with posted := fun q u => change_le n.posted p t q u }

theorem grows_tellSize (n : Node α) (p t k : ℕ) : Grows n (n.tellSize p t k) :=
  { Grows.refl n with sizes := fun q u => change_prefix n.sizes p t [k] q u }

theorem Grows.tell {n m : Node α} (h : Grows n m) (p t : ℕ) (a : Note) : Grows n (m.tell p t a) :=
  h.trans (grows_tell m p t a)

theorem Grows.put {n m : Node α} (h : Grows n m) (p t : ℕ) (x : List α) : Grows n (m.put p t x) :=
  h.trans (grows_put m p t x)

theorem Grows.expect {n m : Node α} (h : Grows n m) (p t : ℕ) : Grows n (m.expect p t) :=
  h.trans (grows_expect m p t)

theorem Grows.tellSize {n m : Node α} (h : Grows n m) (p t k : ℕ) : Grows n (m.tellSize p t k) :=
  h.trans (grows_tellSize m p t k)

theorem Grows.take {n m : Node α} (h : Grows n m) (p t : ℕ) : Grows n (m.take p t) :=
  ⟨h.notes, h.data, h.posted, h.sizes⟩

theorem Grows.store {n m : Node α} (h : Grows n m) (k : ℕ) (r : Request) : Grows n (m.store k r) :=
  ⟨h.notes, h.data, h.posted, h.sizes⟩

theorem Grows.goto {n m : Node α} (h : Grows n m) (ph : Phase) : Grows n (m.goto ph) :=
  ⟨h.notes, h.data, h.posted, h.sizes⟩

theorem Grows.finish {n m : Node α} (h : Grows n m) (r : Ret α) : Grows n (m.finish r) :=
  ⟨h.notes, h.data, h.posted, h.sizes⟩

theorem Grows.fail {n m : Node α} (h : Grows n m) (p : ℕ) : Grows n (m.fail p) :=
  ⟨h.notes, h.data, h.posted, h.sizes⟩

theorem callStep_grows {eager : ℕ → Bool} {i : ℕ} {w : World α} {n n' : Node α} {c : Call α}
    {ph : Phase} (h : callStep eager i w n c ph = some n') : Grows n n' := by
  unfold callStep at h
  split at h <;> repeat' (split at h)
  all_goals cases h
  all_goals repeat first
    | exact Grows.refl _
    | apply Grows.tell
    | apply Grows.put
    | apply Grows.expect
    | apply Grows.tellSize
    | apply Grows.take
    | apply Grows.store
    | apply Grows.goto
    | apply Grows.fail
    | apply Grows.finish
    | exact ⟨(Grows.refl n).notes, (Grows.refl n).data, (Grows.refl n).posted, (Grows.refl n).sizes⟩

theorem answer_grows {i : ℕ} {w : World α} {n n' : Node α} {p t : ℕ}
    (h : answer i w n p t = some n') : Grows n n' := by
  unfold answer at h
  split at h <;> cases h
  · exact ((Grows.refl n).take _ _).tell _ _ _
  · exact (Grows.refl n).take _ _

theorem move_grows {eager : ℕ → Bool} {i : ℕ} {l : Option (ℕ × ℕ)} {w : World α} {n : Node α}
    (h : move eager i l w = some n) : Grows (w i) n := by
  unfold move at h
  split at h
  · exact answer_grows h
  · split at h
    · cases h
    · exact callStep_grows h
  · cases h

/-! ## What others do does not change the steps of a process -/

theorem prefix_getElem? {β : Type} {l l' : List β} (h : l <+: l') {k : ℕ} {x : β}
    (hx : l[k]? = some x) : l'[k]? = some x := by
  obtain ⟨r, rfl⟩ := h
  obtain ⟨hk, hx'⟩ := List.getElem?_eq_some_iff.1 hx
  rw [List.getElem?_append_left hk]; exact hx

theorem arrived_mono {i p t : ℕ} {w w' : World α} (ht : (w' i).taken p t = (w i).taken p t)
    (hp : Grows (w p) (w' p)) {a : Note} (h : arrived w i p t = some a) :
    arrived w' i p t = some a := by
  unfold arrived at h ⊢
  rw [ht]
  exact prefix_getElem? (hp.notes i t) h

theorem delivered_mono {eager : ℕ → Bool} {i p t k n : ℕ} {w w' : World α}
    (hp : Grows (w p) (w' p)) (h : delivered eager w i p t k n = true) :
    delivered eager w' i p t k n = true := by
  unfold delivered at h ⊢
  rw [Bool.or_eq_true, decide_eq_true_iff] at h ⊢
  exact h.imp id fun h => Nat.lt_of_lt_of_le h (hp.posted i t)

theorem callStep_mono {eager : ℕ → Bool} {i : ℕ} {w w' : World α} {n n' : Node α} {c : Call α}
    {ph : Phase} (hi : w' i = w i) (hg : ∀ p, Grows (w p) (w' p))
    (h : callStep eager i w n c ph = some n') : callStep eager i w' n c ph = some n' := by
  have ha : ∀ p t a, arrived w i p t = some a → arrived w' i p t = some a :=
    fun p t a => arrived_mono (by rw [hi]) (hg p)
  have hd : ∀ p t k x, ((w p).data i t)[k]? = some x → ((w' p).data i t)[k]? = some x :=
    fun p t k x hx => prefix_getElem? ((hg p).data i t) hx
  have hs : ∀ p t k x, ((w p).sizes i t)[k]? = some x → ((w' p).sizes i t)[k]? = some x :=
    fun p t k x hx => prefix_getElem? ((hg p).sizes i t) hx
  have hv : ∀ p t k m, delivered eager w i p t k m = true → delivered eager w' i p t k m = true :=
    fun p t k m => delivered_mono (hg p)
  unfold callStep at h
  split at h <;> repeat' (split at h)
  all_goals cases h
  all_goals unfold callStep
  all_goals simp only [*]
  all_goals simp_all

theorem answer_mono {i : ℕ} {w w' : World α} {n n' : Node α} {p t : ℕ}
    (ht : (w' i).taken p t = (w i).taken p t) (hp : Grows (w p) (w' p))
    (h : answer i w n p t = some n') : answer i w' n p t = some n' := by
  unfold answer at h ⊢
  cases ha : arrived w i p t with
  | none => rw [ha] at h; cases h
  | some a => rw [arrived_mono ht hp ha]; rw [ha] at h; exact h

theorem move_mono {eager : ℕ → Bool} {i : ℕ} {l : Option (ℕ × ℕ)} {w w' : World α} {n : Node α}
    (hi : w' i = w i) (hg : ∀ p, Grows (w p) (w' p)) (h : move eager i l w = some n) :
    move eager i l w' = some n := by
  unfold move at h ⊢
  rw [hi]
  split at h
  · exact answer_mono (by rw [hi]) (hg _) h
  · split at h
    · cases h
    · exact callStep_mono hi hg h
  · cases h

theorem grows_update (w : World α) (j : ℕ) (n : Node α) (h : Grows (w j) n) (p : ℕ) :
    Grows (w p) (Function.update w j n p) := by
  by_cases hp : p = j
  · subst hp; rw [Function.update_self]; exact h
  · rw [Function.update_of_ne hp]; exact Grows.refl _

/-! ## The answers of a killed process -/

/-- The node of a killed process after it has handled the message `a` of `p`. -/
def answered (n : Node α) (p t : ℕ) (a : Note) : Node α :=
  if a = .alive then (n.take p t).tell p t .dead else n.take p t

theorem answer_eq {i : ℕ} {w : World α} {n n' : Node α} {p t : ℕ} :
    answer i w n p t = some n' ↔ ∃ a, arrived w i p t = some a ∧ n' = answered n p t a := by
  unfold answer answered
  cases arrived w i p t with
  | none => simp
  | some a => cases a <;> simp [eq_comm]

theorem answered_down (n : Node α) (p t : ℕ) (a : Note) : (answered n p t a).down = n.down := by
  unfold answered; split_ifs <;> rfl

theorem answered_taken (n : Node α) (p t : ℕ) (a : Note) :
    (answered n p t a).taken = change n.taken p t (n.taken p t + 1) := by
  unfold answered; split_ifs <;> rfl

theorem change_comm {β : Type} (f : ℕ → ℕ → β) {p t q u : ℕ} (h : (p, t) ≠ (q, u)) (a b : β) :
    change (change f p t a) q u b = change (change f q u b) p t a := by
  funext x y
  unfold change
  by_cases h1 : x = q ∧ y = u <;> by_cases h2 : x = p ∧ y = t
  · exact absurd (by rw [← h1.1, ← h1.2, h2.1, h2.2]) h
  · rw [if_pos h1, if_neg h2, if_pos h1]
  · rw [if_neg h1, if_pos h2, if_pos h2]
  · rw [if_neg h1, if_neg h2, if_neg h2, if_neg h1]

theorem change_ne {β : Type} (f : ℕ → ℕ → β) {p t q u : ℕ} (h : (p, t) ≠ (q, u)) (a : β) :
    change f p t a q u = f q u := by
  unfold change
  rw [if_neg]
  rintro ⟨rfl, rfl⟩; exact h rfl

theorem answered_comm (n : Node α) {p t q u : ℕ} (h : (p, t) ≠ (q, u)) (a b : Note) :
    answered (answered n p t a) q u b = answered (answered n q u b) p t a := by
  have h' := h.symm
  unfold answered
  split_ifs <;>
    simp only [Node.take, Node.tell, change_ne _ h, change_ne _ h', change_comm _ h]

/-! ## The order of the steps does not matter -/

theorem move_none_down {eager : ℕ → Bool} {i : ℕ} {w : World α} {n : Node α}
    (h : move eager i none w = some n) : (w i).down = false := by
  unfold move at h
  split at h
  · rename_i h1; cases h1
  · assumption
  · cases h

theorem move_some {eager : ℕ → Bool} {i p t : ℕ} {w : World α} {n : Node α} :
    move eager i (some (p, t)) w = some n ↔
      (w i).down = true ∧ ∃ a, arrived w i p t = some a ∧ n = answered (w i) p t a := by
  rw [← answer_eq]
  unfold move
  cases (w i).down <;> simp

/-- Two different steps can be taken in either order. -/
theorem moves_commute {eager : ℕ → Bool} {i j : ℕ} {l m : Option (ℕ × ℕ)} {w : World α}
    {n o : Node α} (hn : move eager i l w = some n) (ho : move eager j m w = some o) :
    Function.update w j o = Function.update w i n ∨
      ∃ n' o', move eager i l (Function.update w j o) = some n' ∧
        move eager j m (Function.update w i n) = some o' ∧
        Function.update (Function.update w j o) i n' =
          Function.update (Function.update w i n) j o' := by
  by_cases hij : i = j
  · subst hij
    rcases l with - | ⟨p, t⟩ <;> rcases m with - | ⟨q, u⟩
    · rw [hn] at ho; cases ho; exact .inl rfl
    · exact absurd (move_none_down hn) (by rw [(move_some.1 ho).1]; simp)
    · exact absurd (move_none_down ho) (by rw [(move_some.1 hn).1]; simp)
    · by_cases hpq : (p, t) = (q, u)
      · injection hpq with h1 h2; subst h1 h2
        rw [hn] at ho; cases ho; exact .inl rfl
      · obtain ⟨hd, a, ha, rfl⟩ := move_some.1 hn
        obtain ⟨-, b, hb, rfl⟩ := move_some.1 ho
        refine .inr ⟨answered (answered (w i) q u b) p t a, answered (answered (w i) p t a) q u b,
          move_some.2 ⟨?_, a, arrived_mono ?_ (grows_update w i _ (move_grows ho) p) ha, ?_⟩,
          move_some.2 ⟨?_, b, arrived_mono ?_ (grows_update w i _ (move_grows hn) q) hb, ?_⟩, ?_⟩
        · rw [Function.update_self, answered_down]; exact hd
        · rw [Function.update_self, answered_taken, change_ne _ (Ne.symm hpq)]
        · rw [Function.update_self]
        · rw [Function.update_self, answered_down]; exact hd
        · rw [Function.update_self, answered_taken, change_ne _ hpq]
        · rw [Function.update_self]
        · rw [Function.update_idem, Function.update_idem, answered_comm _ hpq]
  · refine .inr ⟨n, o, ?_, ?_, ?_⟩
    · exact move_mono (Function.update_of_ne hij _ _) (grows_update w j o (move_grows ho)) hn
    · exact move_mono (Function.update_of_ne (Ne.symm hij) _ _) (grows_update w i n (move_grows hn)) ho
    · exact Function.update_comm (Ne.symm hij) _ _ _

/-- A step can be taken first. -/
theorem move_first {eager : ℕ → Bool} {P : World α → Prop} {i : ℕ}
    {l : Option (ℕ × ℕ)} {w : World α} {n : Node α} (hn : move eager i l w = some n)
    (h : Inevitable (FaultStep eager) P (Function.update w i n)) :
    Inevitable (FaultStep eager) P w := by
  refine Inevitable.back (fun w => (move eager i l w).map (Function.update w i)) ?_ ?_
    (by simp only [hn, Option.map_some]) h
  · intro x y hxy
    obtain ⟨m, hm, rfl⟩ := Option.map_eq_some_iff.1 hxy
    exact ⟨i, l, m, hm, rfl⟩
  · rintro x y z hxy ⟨j, k, o, ho, rfl⟩
    obtain ⟨m, hm, rfl⟩ := Option.map_eq_some_iff.1 hxy
    rcases moves_commute hm ho with h | ⟨m', o', hm', ho', heq⟩
    · exact .inl h
    · exact .inr ⟨_, by simp only [hm', Option.map_some], j, k, o', ho', heq⟩

/-- If the steps can be taken in one order so that the processes come to an end, then all orders come
to the same end. -/
theorem inevitable_of_reaches {eager : ℕ → Bool} {P : World α → Prop} {w v : World α}
    (hr : Reaches (FaultStep eager) w v) (h : Inevitable (FaultStep eager) P v) :
    Inevitable (FaultStep eager) P w := by
  induction hr with
  | refl _ => exact h
  | tail x y z hxy _ ih =>
    obtain ⟨i, l, n, hn, rfl⟩ := hxy
    exact move_first hn (ih h)

theorem reaches_trans {σ : Type} {step : σ → σ → Prop} {x y z : σ} (h : Reaches step x y)
    (h' : Reaches step y z) : Reaches step x z := by
  induction h with
  | refl _ => exact h'
  | tail x y _ hxy _ ih => exact .tail _ _ _ hxy (ih h')

/-! ## Two processes -/

/-- Two processes with new nodes. -/
def pair (w : World α) (s d : ℕ) (a b : Node α) : World α :=
  Function.update (Function.update w s a) d b

theorem pair_left (w : World α) {s d : ℕ} (h : s ≠ d) (a b : Node α) : pair w s d a b s = a := by
  unfold pair; rw [Function.update_of_ne h, Function.update_self]

theorem pair_right (w : World α) (s d : ℕ) (a b : Node α) : pair w s d a b d = b := by
  unfold pair; rw [Function.update_self]

theorem pair_other (w : World α) {s d i : ℕ} (hs : i ≠ s) (hd : i ≠ d) (a b : Node α) :
    pair w s d a b i = w i := by
  unfold pair; rw [Function.update_of_ne hd, Function.update_of_ne hs]

theorem pair_self (w : World α) (s d : ℕ) : pair w s d (w s) (w d) = w := by
  unfold pair
  rw [Function.update_eq_self]
  by_cases h : s = d
  · subst h; rw [Function.update_eq_self]
  · exact Function.update_eq_self d w

theorem move_call {eager : ℕ → Bool} {i : ℕ} {w : World α} {n n' : Node α} {c : Call α}
    {cs : List (Call α)} {ph : Phase} (hw : w i = n) (hd : n.down = false) (ht : n.todo = c :: cs)
    (hp : n.phase = ph) (h : callStep eager i w n c ph = some n') : move eager i none w = some n' := by
  unfold move
  simp only [hw, hd, ht, hp, h]

theorem go_left {eager : ℕ → Bool} {w z : World α} {s d : ℕ} (hsd : s ≠ d) {a a' b : Node α}
    {c : Call α} {cs : List (Call α)} {ph : Phase} (hd : a.down = false) (ht : a.todo = c :: cs)
    (hp : a.phase = ph) (h : callStep eager s (pair w s d a b) a c ph = some a')
    (hz : Reaches (FaultStep eager) (pair w s d a' b) z) :
    Reaches (FaultStep eager) (pair w s d a b) z := by
  refine .tail _ _ _ ⟨s, none, a', move_call (pair_left w hsd a b) hd ht hp h, rfl⟩ ?_
  have : Function.update (pair w s d a b) s a' = pair w s d a' b := by
    unfold pair
    rw [Function.update_comm hsd.symm, Function.update_idem]
  rw [this]; exact hz

theorem go_right {eager : ℕ → Bool} {w z : World α} {s d : ℕ} {a b b' : Node α}
    {c : Call α} {cs : List (Call α)} {ph : Phase} (hd : b.down = false) (ht : b.todo = c :: cs)
    (hp : b.phase = ph) (h : callStep eager d (pair w s d a b) b c ph = some b')
    (hz : Reaches (FaultStep eager) (pair w s d a b') z) :
    Reaches (FaultStep eager) (pair w s d a b) z := by
  refine .tail _ _ _ ⟨d, none, b', move_call (pair_right w s d a b) hd ht hp h, rfl⟩ ?_
  have : Function.update (pair w s d a b) d b' = pair w s d a b' := by
    unfold pair
    rw [Function.update_idem]
  rw [this]; exact hz

theorem change_self {β : Type} (f : ℕ → ℕ → β) (p t : ℕ) (a : β) : change f p t a p t = a := by
  unfold change; rw [if_pos ⟨rfl, rfl⟩]

/-- The node of a process after it has sent a message to `d`. -/
structure Sent (d t : ℕ) (x : List α) (rets : List (Ret α)) (cs : List (Call α)) (a a' : Node α) :
    Prop where
  todo : a'.todo = cs
  phase : a'.phase = .start
  rets : a'.rets = a.rets ++ rets
  down : a'.down = false
  deadSet : a'.deadSet = a.deadSet
  taken : a'.taken = change a.taken d (t + tagOffset) (a.taken d (t + tagOffset) + 1)
  notes : ∃ o, a'.notes = change a.notes d (t + tagOffset) (a.notes d (t + tagOffset) ++ [o])
  data : a'.data = change a.data d t (a.data d t ++ [x])
  posted : a'.posted = a.posted

/-- The node of a process after it has received a message from `s`. -/
structure Received (s t : ℕ) (rets : List (Ret α)) (cs : List (Call α)) (b b' : Node α) :
    Prop where
  todo : b'.todo = cs
  phase : b'.phase = .start
  rets : b'.rets = b.rets ++ rets
  down : b'.down = false
  deadSet : b'.deadSet = b.deadSet
  taken : b'.taken = change b.taken s (t + tagOffset) (b.taken s (t + tagOffset) + 1)
  notes : ∃ o, b'.notes = change b.notes s (t + tagOffset) (b.notes s (t + tagOffset) ++ [o])
  data : b'.data = b.data
  posted : b'.posted = change b.posted s t (b.posted s t + 1)

/-- What the calls see of each other if nothing is left of earlier messages. -/
structure Fresh (s d t : ℕ) (a b : Node α) : Prop where
  left : a.taken d (t + tagOffset) = (b.notes s (t + tagOffset)).length
  right : b.taken s (t + tagOffset) = (a.notes d (t + tagOffset)).length
  data : b.posted s t = (a.data d t).length

section
set_option linter.unusedSimpArgs false
variable {eager : ℕ → Bool} {w : World α} {s d t : ℕ} {x : List α} {a b : Node α}
  {cs ds : List (Call α)}

theorem blocking_blocking (hsd : s ≠ d) (ha : a.down = false) (hb : b.down = false)
    (hpa : a.phase = .start) (hpb : b.phase = .start) (hf : Fresh s d t a b)
    (hta : a.todo = .send d t x :: cs) (htb : b.todo = .recv s t :: ds) :
    ∃ a' b', Sent d t x [.success] cs a a' ∧ Received s t [.received x] ds b b' ∧
      Reaches (FaultStep eager) (pair w s d a b) (pair w s d a' b') := by
  let a1 : Node α := (a.tell d (t + tagOffset) .alive).goto .note
  let a2 : Node α := (a1.take d (t + tagOffset)).goto .post
  let a3 : Node α := (a2.put d t x).goto (.data (a.data d t).length)
  let a4 : Node α := a3.finish .success
  let b1 : Node α := (b.tell s (t + tagOffset) .alive).goto .note
  let b2 : Node α := (b1.take s (t + tagOffset)).goto .post
  let b3 : Node α := (b2.expect s t).goto (.data (b.posted s t))
  let b4 : Node α := b3.finish (.received x)
  refine ⟨a4, b4, ?_, ?_, ?_⟩
  · exact ⟨by simp [a1, a2, a3, a4, b1, b2, b3, b4, Node.finish, Node.goto, Node.put, Node.take, Node.tell, Node.store, hta], rfl,
      by simp [a1, a2, a3, a4, b1, b2, b3, b4, Node.finish, Node.goto, Node.put, Node.take, Node.tell, Node.store], ha, rfl, rfl,
      ⟨_, rfl⟩, rfl, rfl⟩
  · exact ⟨by simp [a1, a2, a3, a4, b1, b2, b3, b4, Node.finish, Node.goto, Node.expect, Node.take, Node.tell, Node.store, htb], rfl,
      by simp [a1, a2, a3, a4, b1, b2, b3, b4, Node.finish, Node.goto, Node.expect, Node.take, Node.tell, Node.store], hb, rfl, rfl,
      ⟨_, rfl⟩, rfl, rfl⟩
  refine go_left hsd ha hta hpa (a' := a1) ?_ ?_
  · simp [a1, a2, a3, a4, b1, b2, b3, b4, callStep, arrived, delivered, pair_left _ hsd, pair_right, Node.goto, Node.tell, Node.take, Node.put,
      Node.expect, Node.finish, Node.store, change_self, hf.left, hf.right, hf.data]
  refine go_right hb htb hpb (b' := b1) ?_ ?_
  · simp [a1, a2, a3, a4, b1, b2, b3, b4, callStep, arrived, delivered, pair_left _ hsd, pair_right, Node.goto, Node.tell, Node.take, Node.put,
      Node.expect, Node.finish, Node.store, change_self, hf.left, hf.right, hf.data]
  refine go_left hsd ha hta rfl (a' := a2) ?_ ?_
  · simp [a1, a2, a3, a4, b1, b2, b3, b4, callStep, arrived, delivered, pair_left _ hsd, pair_right, Node.goto, Node.tell, Node.take, Node.put,
      Node.expect, Node.finish, Node.store, change_self, hf.left, hf.right, hf.data]
  refine go_right hb htb rfl (b' := b2) ?_ ?_
  · simp [a1, a2, a3, a4, b1, b2, b3, b4, callStep, arrived, delivered, pair_left _ hsd, pair_right, Node.goto, Node.tell, Node.take, Node.put,
      Node.expect, Node.finish, Node.store, change_self, hf.left, hf.right, hf.data]
  refine go_left hsd ha hta rfl (a' := a3) ?_ ?_
  · simp [a1, a2, a3, a4, b1, b2, b3, b4, callStep, arrived, delivered, pair_left _ hsd, pair_right, Node.goto, Node.tell, Node.take, Node.put,
      Node.expect, Node.finish, Node.store, change_self, hf.left, hf.right, hf.data]
  refine go_right hb htb rfl (b' := b3) ?_ ?_
  · simp [a1, a2, a3, a4, b1, b2, b3, b4, callStep, arrived, delivered, pair_left _ hsd, pair_right, Node.goto, Node.tell, Node.take, Node.put,
      Node.expect, Node.finish, Node.store, change_self, hf.left, hf.right, hf.data]
  refine go_right hb htb rfl (b' := b4) ?_ ?_
  · simp [a1, a2, a3, a4, b1, b2, b3, b4, callStep, arrived, delivered, pair_left _ hsd, pair_right, Node.goto, Node.tell, Node.take, Node.put,
      Node.expect, Node.finish, Node.store, change_self, hf.left, hf.right, hf.data]
  refine go_left hsd ha hta rfl (a' := a4) ?_ ?_
  · simp [a1, a2, a3, a4, b1, b2, b3, b4, callStep, arrived, delivered, pair_left _ hsd, pair_right, Node.goto, Node.tell, Node.take, Node.put,
      Node.expect, Node.finish, Node.store, change_self, hf.left, hf.right, hf.data]
  exact .refl _

theorem blocking_wait {k : ℕ} (hsd : s ≠ d) (ha : a.down = false) (hb : b.down = false)
    (hpa : a.phase = .start) (hpb : b.phase = .start) (hf : Fresh s d t a b)
    (hkb : b.deadSet s = false)
    (hta : a.todo = .send d t x :: cs) (htb : b.todo = .irecv s t k :: .wait k :: ds) :
    ∃ a' b', Sent d t x [.success] cs a a' ∧ Received s t [.success, .received x] ds b b' ∧
      Reaches (FaultStep eager) (pair w s d a b) (pair w s d a' b') := by
  let a1 : Node α := (a.tell d (t + tagOffset) .alive).goto .note
  let a2 : Node α := (a1.take d (t + tagOffset)).goto .post
  let a3 : Node α := (a2.put d t x).goto (.data (a.data d t).length)
  let a4 : Node α := a3.finish .success
  let b1 : Node α := (((b.tell s (t + tagOffset) .aliveNb).store k (.receiving s t (b.posted s t))).expect s
      t).finish .success
  let b2 : Node α := b1.goto .note
  let b3 : Node α := (b2.take s (t + tagOffset)).finish (.received x)
  have htb' : b1.todo = .wait k :: ds := by simp [b1, Node.finish, Node.expect, Node.store, Node.tell, htb]
  refine ⟨a4, b3, ?_, ?_, ?_⟩
  · exact ⟨by simp [a1, a2, a3, a4, b1, b2, b3, Node.finish, Node.goto, Node.put, Node.take, Node.tell, Node.store, hta], rfl,
      by simp [a1, a2, a3, a4, b1, b2, b3, Node.finish, Node.goto, Node.put, Node.take, Node.tell, Node.store], ha, rfl, rfl,
      ⟨_, rfl⟩, rfl, rfl⟩
  · exact ⟨by simp [a1, a2, a3, a4, b1, b2, b3, Node.finish, Node.goto, Node.expect, Node.take, Node.tell, Node.store, htb], rfl,
      by simp [a1, a2, a3, a4, b1, b2, b3, Node.finish, Node.goto, Node.expect, Node.take, Node.tell, Node.store], hb, rfl, rfl,
      ⟨_, rfl⟩, rfl, rfl⟩
  refine go_left hsd ha hta hpa (a' := a1) ?_ ?_
  · simp [a1, a2, a3, a4, b1, b2, b3, callStep, arrived, delivered, pair_left _ hsd, pair_right, Node.goto, Node.tell, Node.take, Node.put,
      Node.expect, Node.finish, Node.store, change_self, hf.left, hf.right, hf.data, hkb]
  refine go_right hb htb hpb (b' := b1) ?_ ?_
  · simp [a1, a2, a3, a4, b1, b2, b3, callStep, arrived, delivered, pair_left _ hsd, pair_right, Node.goto, Node.tell, Node.take, Node.put,
      Node.expect, Node.finish, Node.store, change_self, hf.left, hf.right, hf.data, hkb]
  refine go_left hsd ha hta rfl (a' := a2) ?_ ?_
  · simp [a1, a2, a3, a4, b1, b2, b3, callStep, arrived, delivered, pair_left _ hsd, pair_right, Node.goto, Node.tell, Node.take, Node.put,
      Node.expect, Node.finish, Node.store, change_self, hf.left, hf.right, hf.data, hkb]
  refine go_left hsd ha hta rfl (a' := a3) ?_ ?_
  · simp [a1, a2, a3, a4, b1, b2, b3, callStep, arrived, delivered, pair_left _ hsd, pair_right, Node.goto, Node.tell, Node.take, Node.put,
      Node.expect, Node.finish, Node.store, change_self, hf.left, hf.right, hf.data, hkb]
  refine go_left hsd ha hta rfl (a' := a4) ?_ ?_
  · simp [a1, a2, a3, a4, b1, b2, b3, callStep, arrived, delivered, pair_left _ hsd, pair_right, Node.goto, Node.tell, Node.take, Node.put,
      Node.expect, Node.finish, Node.store, change_self, hf.left, hf.right, hf.data, hkb]
  refine go_right hb htb' rfl (b' := b2) ?_ ?_
  · simp [a1, a2, a3, a4, b1, b2, b3, callStep, arrived, delivered, pair_left _ hsd, pair_right, Node.goto, Node.tell, Node.take, Node.put,
      Node.expect, Node.finish, Node.store, change_self, hf.left, hf.right, hf.data, hkb]
  refine go_right hb htb' rfl (b' := b3) ?_ ?_
  · simp [a1, a2, a3, a4, b1, b2, b3, callStep, arrived, delivered, pair_left _ hsd, pair_right, Node.goto, Node.tell, Node.take, Node.put,
      Node.expect, Node.finish, Node.store, change_self, hf.left, hf.right, hf.data, hkb]
  exact .refl _

theorem wait_blocking {h : ℕ} (hsd : s ≠ d) (ha : a.down = false) (hb : b.down = false)
    (hpa : a.phase = .start) (hpb : b.phase = .start) (hf : Fresh s d t a b)
    (hka : a.deadSet d = false)
    (hta : a.todo = .isend d t x h :: .wait h :: cs) (htb : b.todo = .recv s t :: ds) :
    ∃ a' b', Sent d t x [.success, .success] cs a a' ∧ Received s t [.received x] ds b b' ∧
      Reaches (FaultStep eager) (pair w s d a b) (pair w s d a' b') := by
  let a1 : Node α := (((a.tell d (t + tagOffset) .aliveNb).store h (.sending d t (a.data d t).length)).put d t
      x).finish .success
  let a2 : Node α := a1.goto .note
  let a3 : Node α := (a2.take d (t + tagOffset)).finish .success
  let b1 : Node α := (b.tell s (t + tagOffset) .alive).goto .note
  let b2 : Node α := (b1.take s (t + tagOffset)).goto .post
  let b3 : Node α := (b2.expect s t).goto (.data (b.posted s t))
  let b4 : Node α := b3.finish (.received x)
  have hta' : a1.todo = .wait h :: cs := by simp [a1, Node.finish, Node.put, Node.store, Node.tell, hta]
  refine ⟨a3, b4, ?_, ?_, ?_⟩
  · exact ⟨by simp [a1, a2, a3, b1, b2, b3, b4, Node.finish, Node.goto, Node.put, Node.take, Node.tell, Node.store, hta], rfl,
      by simp [a1, a2, a3, b1, b2, b3, b4, Node.finish, Node.goto, Node.put, Node.take, Node.tell, Node.store], ha, rfl, rfl,
      ⟨_, rfl⟩, rfl, rfl⟩
  · exact ⟨by simp [a1, a2, a3, b1, b2, b3, b4, Node.finish, Node.goto, Node.expect, Node.take, Node.tell, Node.store, htb], rfl,
      by simp [a1, a2, a3, b1, b2, b3, b4, Node.finish, Node.goto, Node.expect, Node.take, Node.tell, Node.store], hb, rfl, rfl,
      ⟨_, rfl⟩, rfl, rfl⟩
  refine go_left hsd ha hta hpa (a' := a1) ?_ ?_
  · simp [a1, a2, a3, b1, b2, b3, b4, callStep, arrived, delivered, pair_left _ hsd, pair_right, Node.goto, Node.tell, Node.take, Node.put,
      Node.expect, Node.finish, Node.store, change_self, hf.left, hf.right, hf.data, hka]
  refine go_right hb htb hpb (b' := b1) ?_ ?_
  · simp [a1, a2, a3, b1, b2, b3, b4, callStep, arrived, delivered, pair_left _ hsd, pair_right, Node.goto, Node.tell, Node.take, Node.put,
      Node.expect, Node.finish, Node.store, change_self, hf.left, hf.right, hf.data, hka]
  refine go_right hb htb rfl (b' := b2) ?_ ?_
  · simp [a1, a2, a3, b1, b2, b3, b4, callStep, arrived, delivered, pair_left _ hsd, pair_right, Node.goto, Node.tell, Node.take, Node.put,
      Node.expect, Node.finish, Node.store, change_self, hf.left, hf.right, hf.data, hka]
  refine go_right hb htb rfl (b' := b3) ?_ ?_
  · simp [a1, a2, a3, b1, b2, b3, b4, callStep, arrived, delivered, pair_left _ hsd, pair_right, Node.goto, Node.tell, Node.take, Node.put,
      Node.expect, Node.finish, Node.store, change_self, hf.left, hf.right, hf.data, hka]
  refine go_right hb htb rfl (b' := b4) ?_ ?_
  · simp [a1, a2, a3, b1, b2, b3, b4, callStep, arrived, delivered, pair_left _ hsd, pair_right, Node.goto, Node.tell, Node.take, Node.put,
      Node.expect, Node.finish, Node.store, change_self, hf.left, hf.right, hf.data, hka]
  refine go_left hsd ha hta' rfl (a' := a2) ?_ ?_
  · simp [a1, a2, a3, b1, b2, b3, b4, callStep, arrived, delivered, pair_left _ hsd, pair_right, Node.goto, Node.tell, Node.take, Node.put,
      Node.expect, Node.finish, Node.store, change_self, hf.left, hf.right, hf.data, hka]
  refine go_left hsd ha hta' rfl (a' := a3) ?_ ?_
  · simp [a1, a2, a3, b1, b2, b3, b4, callStep, arrived, delivered, pair_left _ hsd, pair_right, Node.goto, Node.tell, Node.take, Node.put,
      Node.expect, Node.finish, Node.store, change_self, hf.left, hf.right, hf.data, hka]
  exact .refl _

theorem wait_wait {h k : ℕ} (hsd : s ≠ d) (ha : a.down = false) (hb : b.down = false)
    (hpa : a.phase = .start) (hpb : b.phase = .start) (hf : Fresh s d t a b)
    (hka : a.deadSet d = false)
    (hkb : b.deadSet s = false)
    (hta : a.todo = .isend d t x h :: .wait h :: cs) (htb : b.todo = .irecv s t k :: .wait k :: ds) :
    ∃ a' b', Sent d t x [.success, .success] cs a a' ∧ Received s t [.success, .received x] ds b b' ∧
      Reaches (FaultStep eager) (pair w s d a b) (pair w s d a' b') := by
  let a1 : Node α := (((a.tell d (t + tagOffset) .aliveNb).store h (.sending d t (a.data d t).length)).put d t
      x).finish .success
  let a2 : Node α := a1.goto .note
  let a3 : Node α := (a2.take d (t + tagOffset)).finish .success
  let b1 : Node α := (((b.tell s (t + tagOffset) .aliveNb).store k (.receiving s t (b.posted s t))).expect s
      t).finish .success
  let b2 : Node α := b1.goto .note
  let b3 : Node α := (b2.take s (t + tagOffset)).finish (.received x)
  have hta' : a1.todo = .wait h :: cs := by simp [a1, Node.finish, Node.put, Node.store, Node.tell, hta]
  have htb' : b1.todo = .wait k :: ds := by simp [b1, Node.finish, Node.expect, Node.store, Node.tell, htb]
  refine ⟨a3, b3, ?_, ?_, ?_⟩
  · exact ⟨by simp [a1, a2, a3, b1, b2, b3, Node.finish, Node.goto, Node.put, Node.take, Node.tell, Node.store, hta], rfl,
      by simp [a1, a2, a3, b1, b2, b3, Node.finish, Node.goto, Node.put, Node.take, Node.tell, Node.store], ha, rfl, rfl,
      ⟨_, rfl⟩, rfl, rfl⟩
  · exact ⟨by simp [a1, a2, a3, b1, b2, b3, Node.finish, Node.goto, Node.expect, Node.take, Node.tell, Node.store, htb], rfl,
      by simp [a1, a2, a3, b1, b2, b3, Node.finish, Node.goto, Node.expect, Node.take, Node.tell, Node.store], hb, rfl, rfl,
      ⟨_, rfl⟩, rfl, rfl⟩
  refine go_left hsd ha hta hpa (a' := a1) ?_ ?_
  · simp [a1, a2, a3, b1, b2, b3, callStep, arrived, delivered, pair_left _ hsd, pair_right, Node.goto, Node.tell, Node.take, Node.put,
      Node.expect, Node.finish, Node.store, change_self, hf.left, hf.right, hf.data, hka, hkb]
  refine go_right hb htb hpb (b' := b1) ?_ ?_
  · simp [a1, a2, a3, b1, b2, b3, callStep, arrived, delivered, pair_left _ hsd, pair_right, Node.goto, Node.tell, Node.take, Node.put,
      Node.expect, Node.finish, Node.store, change_self, hf.left, hf.right, hf.data, hka, hkb]
  refine go_left hsd ha hta' rfl (a' := a2) ?_ ?_
  · simp [a1, a2, a3, b1, b2, b3, callStep, arrived, delivered, pair_left _ hsd, pair_right, Node.goto, Node.tell, Node.take, Node.put,
      Node.expect, Node.finish, Node.store, change_self, hf.left, hf.right, hf.data, hka, hkb]
  refine go_left hsd ha hta' rfl (a' := a3) ?_ ?_
  · simp [a1, a2, a3, b1, b2, b3, callStep, arrived, delivered, pair_left _ hsd, pair_right, Node.goto, Node.tell, Node.take, Node.put,
      Node.expect, Node.finish, Node.store, change_self, hf.left, hf.right, hf.data, hka, hkb]
  refine go_right hb htb' rfl (b' := b2) ?_ ?_
  · simp [a1, a2, a3, b1, b2, b3, callStep, arrived, delivered, pair_left _ hsd, pair_right, Node.goto, Node.tell, Node.take, Node.put,
      Node.expect, Node.finish, Node.store, change_self, hf.left, hf.right, hf.data, hka, hkb]
  refine go_right hb htb' rfl (b' := b3) ?_ ?_
  · simp [a1, a2, a3, b1, b2, b3, callStep, arrived, delivered, pair_left _ hsd, pair_right, Node.goto, Node.tell, Node.take, Node.put,
      Node.expect, Node.finish, Node.store, change_self, hf.left, hf.right, hf.data, hka, hkb]
  exact .refl _

end

/-! ## A partner that was killed -/

/-- The node of a process after a call to the killed process `p`. -/
structure Failed (p t : ℕ) (cs : List (Call α)) (a a' : Node α) : Prop where
  todo : a'.todo = cs
  phase : a'.phase = .start
  rets : a'.rets = a.rets ++ [.failed]
  down : a'.down = false
  deadSet : a'.deadSet = Function.update a.deadSet p true
  taken : a'.taken = change a.taken p (t + tagOffset) (a.taken p (t + tagOffset) + 1)
  notes : a'.notes = change a.notes p (t + tagOffset) (a.notes p (t + tagOffset) ++ [.alive])
  data : a'.data = a.data
  posted : a'.posted = a.posted

theorem go_answer {eager : ℕ → Bool} {w z : World α} {s d : ℕ} {a b b' : Node α} {p t : ℕ}
    (hd : b.down = true) (h : answer d (pair w s d a b) b p t = some b')
    (hz : Reaches (FaultStep eager) (pair w s d a b') z) :
    Reaches (FaultStep eager) (pair w s d a b) z := by
  refine .tail _ _ _ ⟨d, some (p, t), b', ?_, rfl⟩ ?_
  · unfold move
    simp only [pair_right, hd, h]
  · have : Function.update (pair w s d a b) d b' = pair w s d a b' := by
      unfold pair
      rw [Function.update_idem]
    rw [this]; exact hz

set_option linter.unusedSimpArgs false in
theorem caller_fails {eager : ℕ → Bool} {w : World α} {i p t : ℕ} {a b : Node α} {c : Call α}
    {cs : List (Call α)} (hip : i ≠ p) (hc : (∃ x, c = .send p t x) ∨ c = .recv p t)
    (ha : a.down = false) (hb : b.down = true) (hpa : a.phase = .start)
    (hl : a.taken p (t + tagOffset) = (b.notes i (t + tagOffset)).length)
    (hr : b.taken i (t + tagOffset) = (a.notes p (t + tagOffset)).length) (hta : a.todo = c :: cs) :
    ∃ a', Failed p t cs a a' ∧ Reaches (FaultStep eager) (pair w i p a b)
      (pair w i p a' (answered b i (t + tagOffset) .alive)) := by
  let a1 : Node α := (a.tell p (t + tagOffset) .alive).goto .note
  let b1 : Node α := (b.take i (t + tagOffset)).tell i (t + tagOffset) .dead
  let a2 : Node α := (a1.take p (t + tagOffset)).fail p
  refine ⟨a2, ?_, ?_⟩
  · exact ⟨by simp [a1, a2, Node.fail, Node.finish, Node.goto, Node.take, Node.tell, hta], rfl, rfl, ha,
      rfl, rfl, rfl, rfl, rfl⟩
  · rw [show answered b i (t + tagOffset) .alive = b1 from rfl]
    refine go_left hip ha hta hpa (a' := a1) ?_ ?_
    · rcases hc with ⟨x, rfl⟩ | rfl <;> simp [a1, callStep]
    refine go_answer hb (p := i) (t := t + tagOffset) (b' := b1) ?_ ?_
    · simp [a1, b1, answer, arrived, pair_left _ hip, pair_right, Node.goto, Node.tell, change_self, hr]
    refine go_left hip ha hta rfl (a' := a2) ?_ ?_
    · rcases hc with ⟨x, rfl⟩ | rfl <;>
        simp [a1, a2, b1, callStep, arrived, pair_left _ hip, pair_right, Node.goto, Node.tell, Node.take,
          change_self, hl]
    exact .refl _

/-! ## Schedules -/

/-- Nothing is left of the events so far, and the next ones are `es`. -/
structure Ready (dead : ℕ → Bool) (es : List (Event α)) (w : World α) : Prop where
  todo : ∀ i, (w i).todo = if dead i then [] else program i es
  phase : ∀ i, (w i).phase = .start
  down : ∀ i, (w i).down = dead i
  deadSet : ∀ i p, (w i).deadSet p = true → dead p = true
  notes : ∀ s d t, (w d).taken s t = ((w s).notes d t).length
  data : ∀ s d t, (w d).posted s t = ((w s).data d t).length

theorem ready_initial (es : List (Event α)) :
    Ready (fun _ => false) es (initial fun i => program i es) :=
  ⟨fun _ => rfl, fun _ => rfl, fun _ => rfl, fun _ _ h => by simp [initial] at h, fun _ _ _ => rfl,
    fun _ _ _ => rfl⟩

/-- At the end, no process can do anything. -/
theorem Ready.final {eager : ℕ → Bool} {dead : ℕ → Bool} {w : World α} (h : Ready dead [] w)
    (v : World α) : ¬ FaultStep eager w v := by
  rintro ⟨i, l, n, hn, -⟩
  rcases l with - | ⟨p, t⟩
  · have ht : (w i).todo = [] := by rw [h.todo i]; split_ifs <;> rfl
    unfold move at hn
    rw [ht] at hn
    split at hn <;> simp_all
  · obtain ⟨-, a, ha, -⟩ := move_some.1 hn
    unfold arrived at ha
    rw [h.notes p i t, List.getElem?_eq_none (Nat.le_refl _)] at ha
    cases ha

theorem change_add (f : ℕ → ℕ → ℕ) (p t q u : ℕ) :
    change f p t (f p t + 1) q u = f q u + if q = p ∧ u = t then 1 else 0 := by
  unfold change
  split_ifs with h
  · rw [h.1, h.2]
  · rfl

theorem change_length {β : Type} (f : ℕ → ℕ → List β) (p t q u : ℕ) (x : β) :
    (change f p t (f p t ++ [x]) q u).length = (f q u).length + if q = p ∧ u = t then 1 else 0 := by
  unfold change
  split_ifs with h
  · rw [h.1, h.2, List.length_append, List.length_singleton]
  · rfl

/-- Both partners are alive. -/
theorem Ready.comm {eager : ℕ → Bool} {dead : ℕ → Bool} {w : World α} {s d t : ℕ} {x : List α}
    {hs hd : Option ℕ} {es : List (Event α)} (h : Ready dead (.comm s d t x hs hd :: es) w)
    (hsd : s ≠ d) (h1 : dead s = false) (h2 : dead d = false) :
    ∃ v, Reaches (FaultStep eager) w v ∧ Ready dead es v ∧
      (v s).rets = (w s).rets ++ sendRets false hs ∧
      (v d).rets = (w d).rets ++
        recvRets false x hd ∧
      ∀ i, i ≠ s → i ≠ d → (v i).rets = (w i).rets := by
  have hts : (w s).todo = sendCalls d t x hs ++ program s es := by
    rw [h.todo s, h1]; simp [program]
  have htd : (w d).todo = recvCalls s t hd ++ program d es := by
    rw [h.todo d, h2]; simp [program, hsd]
  have hf : Fresh s d t (w s) (w d) := ⟨h.notes d s _, h.notes s d _, h.data s d t⟩
  have hks : (w s).deadSet d = false := by
    by_contra hc
    have := h.deadSet s d (by simpa using hc)
    rw [h2] at this; cases this
  have hkd : (w d).deadSet s = false := by
    by_contra hc
    have := h.deadSet d s (by simpa using hc)
    rw [h1] at this; cases this
  have hds : (w s).down = false := by rw [h.down, h1]
  have hdd : (w d).down = false := by rw [h.down, h2]
  have key : ∃ a' b',
      Sent d t x (sendRets false hs)
        (program s es) (w s) a' ∧
      Received s t (recvRets false x hd)
        (program d es) (w d) b' ∧
      Reaches (FaultStep eager) (pair w s d (w s) (w d)) (pair w s d a' b') := by
    cases hs with
    | none =>
      cases hd with
      | none => exact blocking_blocking hsd hds hdd (h.phase s) (h.phase d) hf hts htd
      | some k => exact blocking_wait hsd hds hdd (h.phase s) (h.phase d) hf hkd hts htd
    | some k =>
      cases hd with
      | none => exact wait_blocking hsd hds hdd (h.phase s) (h.phase d) hf hks hts htd
      | some k => exact wait_wait hsd hds hdd (h.phase s) (h.phase d) hf hks hkd hts htd
  obtain ⟨a', b', hA, hB, hr⟩ := key
  rw [pair_self] at hr
  refine ⟨_, hr, ?_, ?_, ?_, ?_⟩
  · obtain ⟨o, ho⟩ := hA.notes
    obtain ⟨o', ho'⟩ := hB.notes
    have hds' : d ≠ s := hsd.symm
    refine ⟨?_, ?_, ?_, ?_, ?_, ?_⟩
    · intro i
      by_cases hi : i = s
      · subst hi; rw [pair_left w hsd, hA.todo, h1]; simp
      · by_cases hi' : i = d
        · subst hi'; rw [pair_right, hB.todo, h2]; simp
        · rw [pair_other w hi hi', h.todo i]
          simp [program, Ne.symm hi, Ne.symm hi']
    · intro i
      by_cases hi : i = s
      · subst hi; rw [pair_left w hsd, hA.phase]
      · by_cases hi' : i = d
        · subst hi'; rw [pair_right, hB.phase]
        · rw [pair_other w hi hi', h.phase i]
    · intro i
      by_cases hi : i = s
      · subst hi; rw [pair_left w hsd, hA.down, h1]
      · by_cases hi' : i = d
        · subst hi'; rw [pair_right, hB.down, h2]
        · rw [pair_other w hi hi', h.down i]
    · intro i
      by_cases hi : i = s
      · subst hi; rw [pair_left w hsd, hA.deadSet]; exact h.deadSet i
      · by_cases hi' : i = d
        · subst hi'; rw [pair_right, hB.deadSet]; exact h.deadSet i
        · rw [pair_other w hi hi']; exact h.deadSet i
    · have hta : ∀ j p u, (pair w s d a' b' j).taken p u = (w j).taken p u +
          if ((j = s ∧ p = d) ∨ (j = d ∧ p = s)) ∧ u = t + tagOffset then 1 else 0 := by
        intro j p u
        by_cases hi : j = s
        · subst hi; rw [pair_left w hsd, hA.taken, change_add]; simp [hsd]
        · by_cases hi' : j = d
          · subst hi'; rw [pair_right, hB.taken, change_add]; simp [hi]
          · rw [pair_other w hi hi']; simp [hi, hi']
      have hno : ∀ j p u, ((pair w s d a' b' j).notes p u).length = ((w j).notes p u).length +
          if ((j = s ∧ p = d) ∨ (j = d ∧ p = s)) ∧ u = t + tagOffset then 1 else 0 := by
        intro j p u
        by_cases hi : j = s
        · subst hi; rw [pair_left w hsd, ho, change_length]; simp [hsd]
        · by_cases hi' : j = d
          · subst hi'; rw [pair_right, ho', change_length]; simp [hi]
          · rw [pair_other w hi hi']; simp [hi, hi']
      intro p q u
      rw [hta, hno, h.notes p q u]
      congr 1
      apply if_congr _ rfl rfl
      tauto
    · have hta : ∀ j p u, (pair w s d a' b' j).posted p u = (w j).posted p u +
          if (j = d ∧ p = s) ∧ u = t then 1 else 0 := by
        intro j p u
        by_cases hi : j = s
        · subst hi; rw [pair_left w hsd, hA.posted]; simp [hsd]
        · by_cases hi' : j = d
          · subst hi'; rw [pair_right, hB.posted, change_add]; simp
          · rw [pair_other w hi hi']; simp [hi']
      have hno : ∀ j p u, ((pair w s d a' b' j).data p u).length = ((w j).data p u).length +
          if (j = s ∧ p = d) ∧ u = t then 1 else 0 := by
        intro j p u
        by_cases hi : j = s
        · subst hi; rw [pair_left w hsd, hA.data, change_length]; simp
        · by_cases hi' : j = d
          · subst hi'; rw [pair_right, hB.data]; simp [hi]
          · rw [pair_other w hi hi']; simp [hi]
      intro p q u
      rw [hta, hno, h.data p q u]
      congr 1
      apply if_congr _ rfl rfl
      tauto
  · rw [pair_left w hsd]; exact hA.rets
  · rw [pair_right]; exact hB.rets
  · intro i hi hi'
    rw [pair_other w hi hi']

/-- The partner was killed. -/
theorem Ready.fails {eager : ℕ → Bool} {dead : ℕ → Bool} {w : World α} {i p t : ℕ} {c : Call α}
    {es₀ es : List (Event α)} (h : Ready dead es₀ w) (hip : i ≠ p) (hi : dead i = false)
    (hp : dead p = true) (hc : (∃ x, c = .send p t x) ∨ c = .recv p t)
    (hti : program i es₀ = c :: program i es)
    (hto : ∀ j, j ≠ i → dead j = false → program j es₀ = program j es) :
    ∃ v, Reaches (FaultStep eager) w v ∧ Ready dead es v ∧
      (v i).rets = (w i).rets ++ [.failed] ∧ ∀ j, j ≠ i → (v j).rets = (w j).rets := by
  have htodo : (w i).todo = c :: program i es := by rw [h.todo i, hi, ← hti]; rfl
  have hdp : (w p).down = true := by rw [h.down, hp]
  obtain ⟨a', hA, hr⟩ := caller_fails (eager := eager) (w := w) hip hc (by rw [h.down, hi]) hdp
    (h.phase i) (h.notes p i _) (h.notes i p _) htodo
  rw [pair_self] at hr
  have hpi : p ≠ i := hip.symm
  set b' := answered (w p) i (t + tagOffset) .alive with hb'
  refine ⟨_, hr, ⟨?_, ?_, ?_, ?_, ?_, ?_⟩, ?_, ?_⟩
  · intro j
    by_cases hj : j = i
    · subst hj; rw [pair_left w hip, hA.todo, hi]; simp
    · by_cases hj' : j = p
      · subst hj'
        rw [pair_right, hp, show b'.todo = (w j).todo from rfl, h.todo j, hp]; simp
      · rw [pair_other w hj hj', h.todo j]
        cases hdj : dead j with
        | true => simp
        | false => simp [hto j hj hdj]
  · intro j
    by_cases hj : j = i
    · subst hj; rw [pair_left w hip, hA.phase]
    · by_cases hj' : j = p
      · subst hj'; rw [pair_right]; exact h.phase j
      · rw [pair_other w hj hj', h.phase j]
  · intro j
    by_cases hj : j = i
    · subst hj; rw [pair_left w hip, hA.down, hi]
    · by_cases hj' : j = p
      · subst hj'; rw [pair_right]; exact h.down j
      · rw [pair_other w hj hj', h.down j]
  · intro j q hq
    by_cases hj : j = i
    · subst hj; rw [pair_left w hip, hA.deadSet] at hq
      by_cases hqp : q = p
      · rw [hqp]; exact hp
      · rw [Function.update_of_ne hqp] at hq; exact h.deadSet j q hq
    · by_cases hj' : j = p
      · subst hj'; rw [pair_right] at hq; exact h.deadSet j q hq
      · rw [pair_other w hj hj'] at hq; exact h.deadSet j q hq
  · have hta : ∀ j q u, (pair w i p a' b' j).taken q u = (w j).taken q u +
        if ((j = i ∧ q = p) ∨ (j = p ∧ q = i)) ∧ u = t + tagOffset then 1 else 0 := by
      intro j q u
      by_cases hj : j = i
      · subst hj; rw [pair_left w hip, hA.taken, change_add]; simp [hip]
      · by_cases hj' : j = p
        · subst hj'
          rw [pair_right, show b'.taken = change (w j).taken i (t + tagOffset)
            ((w j).taken i (t + tagOffset) + 1) from rfl, change_add]
          simp [hj]
        · rw [pair_other w hj hj']; simp [hj, hj']
    have hno : ∀ j q u, ((pair w i p a' b' j).notes q u).length = ((w j).notes q u).length +
        if ((j = i ∧ q = p) ∨ (j = p ∧ q = i)) ∧ u = t + tagOffset then 1 else 0 := by
      intro j q u
      by_cases hj : j = i
      · subst hj; rw [pair_left w hip, hA.notes, change_length]; simp [hip]
      · by_cases hj' : j = p
        · subst hj'
          rw [pair_right, show b'.notes = change (w j).notes i (t + tagOffset)
            ((w j).notes i (t + tagOffset) ++ [.dead]) from rfl, change_length]
          simp [hj]
        · rw [pair_other w hj hj']; simp [hj, hj']
    intro q j u
    rw [hta, hno, h.notes q j u]
    congr 1
    apply if_congr _ rfl rfl
    tauto
  · have hpo : ∀ j, (pair w i p a' b' j).posted = (w j).posted := by
      intro j
      by_cases hj : j = i
      · subst hj; rw [pair_left w hip, hA.posted]
      · by_cases hj' : j = p
        · subst hj'; rw [pair_right]; rfl
        · rw [pair_other w hj hj']
    have hda : ∀ j, (pair w i p a' b' j).data = (w j).data := by
      intro j
      by_cases hj : j = i
      · subst hj; rw [pair_left w hip, hA.data]
      · by_cases hj' : j = p
        · subst hj'; rw [pair_right]; rfl
        · rw [pair_other w hj hj']
    intro q j u
    rw [hpo, hda]; exact h.data q j u
  · rw [pair_left w hip]; exact hA.rets
  · intro j hj
    by_cases hj' : j = p
    · subst hj'; rw [pair_right]; rfl
    · rw [pair_other w hj hj']

/-- A process is killed. -/
theorem Ready.die {eager : ℕ → Bool} {dead : ℕ → Bool} {w : World α} {j : ℕ}
    {es : List (Event α)} (h : Ready dead (.die j :: es) w) :
    ∃ v, Reaches (FaultStep eager) w v ∧ Ready (Function.update dead j true) es v ∧
      ∀ i, (v i).rets = (w i).rets := by
  have hprog : ∀ i, i ≠ j → program i (.die j :: es) = program i es := by
    intro i hi; simp [program, Ne.symm hi]
  cases hj : dead j with
  | true =>
    have hup : Function.update dead j true = dead := by rw [← hj]; exact Function.update_eq_self j dead
    refine ⟨w, .refl _, ?_, fun _ => rfl⟩
    rw [hup]
    refine { h with todo := fun i => ?_ }
    rw [h.todo i]
    by_cases hi : i = j
    · subst hi; simp [hj]
    · rw [hprog i hi]
  | false =>
    have htodo : (w j).todo = [.die] := by rw [h.todo j, hj]; simp [program]
    have hmove : move eager j none w = some (w j).kill :=
      move_call rfl (by rw [h.down, hj]) htodo (h.phase j) rfl
    have hfield : ∀ {β : Type} (f : Node α → β), f (w j).kill = f (w j) →
        ∀ i, f (Function.update w j (w j).kill i) = f (w i) := by
      intro β f hf i
      by_cases hi : i = j
      · subst hi; rw [Function.update_self]; exact hf
      · rw [Function.update_of_ne hi]
    refine ⟨_, .tail _ _ _ ⟨j, none, _, hmove, rfl⟩ (.refl _), ⟨?_, ?_, ?_, ?_, ?_, ?_⟩,
      hfield Node.rets rfl⟩
    · intro i
      by_cases hi : i = j
      · subst hi; rw [Function.update_self, Function.update_self]; rfl
      · rw [Function.update_of_ne hi, Function.update_of_ne hi, h.todo i, hprog i hi]
    · intro i
      by_cases hi : i = j
      · subst hi; rw [Function.update_self]; rfl
      · rw [Function.update_of_ne hi]; exact h.phase i
    · intro i
      by_cases hi : i = j
      · subst hi; rw [Function.update_self, Function.update_self]; rfl
      · rw [Function.update_of_ne hi, Function.update_of_ne hi]; exact h.down i
    · intro i p hp
      rw [hfield Node.deadSet rfl] at hp
      by_cases hpj : p = j
      · rw [hpj, Function.update_self]
      · rw [Function.update_of_ne hpj]; exact h.deadSet i p hp
    · intro s d t
      rw [hfield Node.taken rfl, hfield Node.notes rfl]; exact h.notes s d t
    · intro s d t
      rw [hfield Node.posted rfl, hfield Node.data rfl]; exact h.data s d t

/-- A schedule can be carried out event by event. -/
theorem schedule_runs (eager : ℕ → Bool) (es : List (Event α)) (dead : ℕ → Bool) (w : World α)
    (ha : Allowed dead es) (h : Ready dead es w) :
    ∃ v dead', Reaches (FaultStep eager) w v ∧ Ready dead' [] v ∧
      (∀ i, dead' i = true ↔ dead i = true ∨ .die i ∈ es) ∧
      ∀ i, (v i).rets = (w i).rets ++ if dead i then [] else verdicts i dead es := by
  induction es generalizing dead w with
  | nil => exact ⟨w, dead, .refl _, h, fun i => by simp, fun i => by simp [verdicts]⟩
  | cons e es ih =>
    cases e with
    | die j =>
      obtain ⟨u, hr, hu, hrets⟩ := h.die (eager := eager)
      obtain ⟨v, dead', hr', hv, hdead, hrets'⟩ := ih _ u ha hu
      refine ⟨v, dead', reaches_trans hr hr', hv, fun i => ?_, fun i => ?_⟩
      · rw [hdead i]
        by_cases hi : i = j
        · subst hi; simp
        · rw [Function.update_of_ne hi]; simp [hi]
      rw [hrets' i, hrets i]
      by_cases hi : i = j
      · subst hi; rw [Function.update_self]; simp [verdicts]
      · rw [Function.update_of_ne hi]; simp [verdicts, Ne.symm hi]
    | comm s d t x hs hd =>
      obtain ⟨hsd, h1, h2, ha'⟩ := ha
      cases hds : dead s with
      | false =>
        cases hdd : dead d with
        | false =>
          obtain ⟨u, hr, hu, e1, e2, e3⟩ := h.comm (eager := eager) hsd hds hdd
          obtain ⟨v, dead', hr', hv, hdead, hrets'⟩ := ih _ u ha' hu
          refine ⟨v, dead', reaches_trans hr hr', hv, fun i => by rw [hdead i]; simp, fun i => ?_⟩
          rw [hrets' i]
          by_cases hi : i = s
          · subst hi; rw [e1, hds]; simp [verdicts, hdd]
          · by_cases hi' : i = d
            · subst hi'; rw [e2, hdd]; simp [verdicts, hds, hsd]
            · rw [e3 i hi hi']; simp [verdicts, Ne.symm hi, Ne.symm hi']
        | true =>
          obtain rfl := h2 hdd hds
          obtain ⟨u, hr, hu, e1, e2⟩ := h.fails (eager := eager) (es := es) (t := t)
            (c := .send d t x) hsd hds hdd (.inl ⟨x, rfl⟩) (by simp [program, sendCalls])
            (fun j hj hj' => by
              have : d ≠ j := fun hc => by rw [← hc, hdd] at hj'; cases hj'
              simp [program, Ne.symm hj, this])
          obtain ⟨v, dead', hr', hv, hdead, hrets'⟩ := ih _ u ha' hu
          refine ⟨v, dead', reaches_trans hr hr', hv, fun i => by rw [hdead i]; simp, fun i => ?_⟩
          rw [hrets' i]
          by_cases hi : i = s
          · subst hi; rw [e1, hds]; simp [verdicts, hdd, sendRets]
          · rw [e2 i hi]
            by_cases hi' : i = d
            · subst hi'; rw [hdd]; simp
            · simp [verdicts, Ne.symm hi, Ne.symm hi']
      | true =>
        cases hdd : dead d with
        | false =>
          obtain rfl := h1 hds hdd
          obtain ⟨u, hr, hu, e1, e2⟩ := h.fails (eager := eager) (es := es) (t := t)
            (c := .recv s t) hsd.symm hdd hds (.inr rfl) (by simp [program, recvCalls, hsd])
            (fun j hj hj' => by
              have : s ≠ j := fun hc => by rw [← hc, hds] at hj'; cases hj'
              simp [program, Ne.symm hj, this])
          obtain ⟨v, dead', hr', hv, hdead, hrets'⟩ := ih _ u ha' hu
          refine ⟨v, dead', reaches_trans hr hr', hv, fun i => by rw [hdead i]; simp, fun i => ?_⟩
          rw [hrets' i]
          by_cases hi : i = d
          · subst hi; rw [e1, hdd]; simp [verdicts, hds, recvRets, hsd]
          · rw [e2 i hi]
            by_cases hi' : i = s
            · subst hi'; rw [hds]; simp
            · simp [verdicts, Ne.symm hi, Ne.symm hi']
        | true =>
          have hu : Ready dead es w := { h with
            todo := fun i => by
              rw [h.todo i]
              cases hi : dead i with
              | true => simp
              | false =>
                have e1 : s ≠ i := fun hc => by rw [← hc, hds] at hi; cases hi
                have e2 : d ≠ i := fun hc => by rw [← hc, hdd] at hi; cases hi
                simp [program, e1, e2] }
          obtain ⟨v, dead', hr', hv, hdead, hrets'⟩ := ih _ w ha' hu
          refine ⟨v, dead', hr', hv, fun i => by rw [hdead i]; simp, fun i => ?_⟩
          rw [hrets' i]
          cases hi : dead i with
          | true => simp
          | false =>
            have e1 : s ≠ i := fun hc => by rw [← hc, hds] at hi; cases hi
            have e2 : d ≠ i := fun hc => by rw [← hc, hdd] at hi; cases hi
            simp [verdicts, e1, e2]

end Verif.FaultMessages
