import Verif.Model.Compression
import Verif.Lemmas.FileIO

/-!
# Lemmas for compressed files
-/

namespace Verif.Compression

variable {α : Type}

theorem toBytes_length (c : Codec α) (vals : List α) : (toBytes c vals).length = vals.length * c.size := by
  induction vals with
  | nil => simp [toBytes]
  | cons x xs ih =>
    unfold toBytes at ih ⊢
    rw [List.flatMap_cons, List.length_append, ih]
    simp [Nat.succ_mul, Nat.add_comm]

theorem toBytes_append (c : Codec α) (v w : List α) : toBytes c (v ++ w) = toBytes c v ++ toBytes c w := by
  simp [toBytes]

theorem toBytes_getD (c : Codec α) (vals : List α) (i j : ℕ) (hi : i < vals.length) (hj : j < c.size) :
    (toBytes c vals).getD (i * c.size + j) 0 = c.enc vals[i] j := by
  induction vals generalizing i with
  | nil => simp at hi
  | cons x xs ih =>
    have he : toBytes c (x :: xs) = (List.range c.size).map (c.enc x) ++ toBytes c xs := by
      simp [toBytes]
    rw [he]
    cases i with
    | zero =>
      rw [List.getD_append _ _ _ _ (by simpa using hj)]
      simp [List.getD_eq_getElem?_getD, hj]
    | succ i =>
      rw [List.getD_append_right _ _ _ _ (by simp [Nat.succ_mul]; omega)]
      simp only [List.length_map, List.length_range, List.getElem_cons_succ]
      rw [show (i + 1) * c.size + j - c.size = i * c.size + j by rw [Nat.succ_mul]; omega]
      exact ih i (by simpa using hi)

theorem ofBytes_length (c : Codec α) (bs : List UInt8) : (ofBytes c bs).length = bs.length / c.size := by
  simp [ofBytes]

/-- Values and bytes of further values. -/
theorem ofBytes_prefix (c : Codec α) (vals : List α) (bs : List UInt8) (k : ℕ) (hk : k ≤ vals.length)
    (hb : bs.length / c.size = k) (h : ∃ t, toBytes c vals = bs ++ t) : ofBytes c bs = vals.take k := by
  obtain ⟨t, ht⟩ := h
  apply List.ext_getElem
  · rw [ofBytes_length, List.length_take, hb]
    omega
  · intro i h1 h2
    rw [ofBytes_length, hb] at h1
    have hg : ∀ h, (ofBytes c bs)[i]'h = c.dec fun j => bs.getD (i * c.size + j) 0 := fun h => by
      simp [ofBytes]
    rw [hg, List.getElem_take]
    refine c.dec_enc _ _ fun j hj => ?_
    rw [← toBytes_getD c vals i j (by omega) hj, ht, List.getD_append]
    have h3 : (i + 1) * c.size ≤ k * c.size := Nat.mul_le_mul_right _ h1
    rw [Nat.succ_mul] at h3
    have h4 := Nat.div_mul_le_self bs.length c.size
    rw [hb] at h4
    omega

theorem ofBytes_toBytes (c : Codec α) (vals : List α) : ofBytes c (toBytes c vals) = vals := by
  rw [ofBytes_prefix c vals _ vals.length le_rfl
    (by rw [toBytes_length, Nat.mul_div_cancel _ c.size_pos]) ⟨[], by simp⟩, List.take_length]

theorem toBytes_drop (c : Codec α) (vals : List α) (k : ℕ) :
    toBytes c (vals.drop k) = (toBytes c vals).drop (k * c.size) := by
  induction vals generalizing k with
  | nil => simp [toBytes]
  | cons x xs ih =>
    cases k with
    | zero => simp
    | succ k =>
      rw [List.drop_succ_cons, ih]
      have he : toBytes c (x :: xs) = (List.range c.size).map (c.enc x) ++ toBytes c xs := by
        simp [toBytes]
      rw [he, List.drop_append]
      simp only [List.length_map, List.length_range]
      have hnil : List.drop ((k + 1) * c.size) (List.map (c.enc x) (List.range c.size)) = [] :=
        List.drop_eq_nil_of_le (by simp [Nat.succ_mul])
      rw [hnil, List.nil_append, show (k + 1) * c.size - c.size = k * c.size by rw [Nat.succ_mul]; omega]

/-- `mapAll` when every step has a result. -/
theorem mapAll_ok {β γ : Type} (f : β → Outcome γ) (g : β → γ) (l : List β) (h : ∀ x ∈ l, f x = .ok (g x)) :
    mapAll f l = .ok (l.map g) := by
  induction l with
  | nil => rfl
  | cons x xs ih =>
    unfold mapAll
    rw [h x (by simp), ih fun y hy => h y (by simp [hy])]
    rfl

theorem mapAll_ok_iff {β γ : Type} (f : β → Outcome γ) (l : List β) (ys : List γ) :
    mapAll f l = .ok ys ↔ List.Forall₂ (fun x y => f x = .ok y) l ys := by
  induction l generalizing ys with
  | nil =>
    simp only [mapAll, List.forall₂_nil_left_iff, Outcome.ok.injEq]
    exact eq_comm
  | cons x xs ih =>
    unfold mapAll
    cases hx : f x with
    | error =>
      simp only [Outcome.bind, reduceCtorEq, false_iff]
      intro h
      cases h with
      | cons h1 h2 => rw [hx] at h1; simp at h1
    | stuck =>
      simp only [Outcome.bind, reduceCtorEq, false_iff]
      intro h
      cases h with
      | cons h1 h2 => rw [hx] at h1; simp at h1
    | ok y =>
      simp only [Outcome.bind]
      cases hm : mapAll f xs with
      | ok zs =>
        simp only [Outcome.ok.injEq]
        constructor
        · rintro rfl
          exact .cons hx ((ih zs).1 hm)
        · intro h
          cases h with
          | cons h1 h2 =>
            rw [hx, Outcome.ok.injEq] at h1
            have := (ih _).2 h2
            rw [hm, Outcome.ok.injEq] at this
            rw [h1, this]
      | error =>
        simp only [reduceCtorEq, false_iff]
        intro h
        cases h with
        | cons h1 h2 =>
          have := (ih _).2 h2
          rw [hm] at this
          simp at this
      | stuck =>
        simp only [reduceCtorEq, false_iff]
        intro h
        cases h with
        | cons h1 h2 =>
          have := (ih _).2 h2
          rw [hm] at this
          simp at this

/-- What decompressing gives, if it gives something. -/
theorem decompressFrame_ok (lz : Lz4) (c : Codec α) (f x : List UInt8) (n : ℕ) (vals : List α)
    (hx : lz.content f = some x) (h : decompressFrame lz c f n = .ok vals) :
    n ≠ 0 ∧ x.length = n * c.size ∧ vals = ofBytes c x := by
  unfold decompressFrame at h
  rw [hx] at h
  simp only at h
  have hpos := lz.frame_pos f x hx
  have hple := lz.produced_le f x 0 0 (n * c.size) hx hpos
  have hfin := lz.finish f x 0 0 (n * c.size) hx hpos (Nat.zero_le _)
  generalize (lz.answer f 0 0 (n * c.size)).1 = co at *
  generalize (lz.answer f 0 0 (n * c.size)).2 = pr at *
  by_cases h1 : pr / c.size = 0
  · rw [if_pos h1] at h
    split at h <;> simp at h
  · rw [if_neg h1] at h
    by_cases h2 : co ≠ f.length
    · rw [if_pos h2] at h
      simp at h
    · rw [if_neg h2] at h
      by_cases h3 : n - pr / c.size ≠ 0
      · rw [if_pos h3] at h
        simp at h
      · rw [if_neg h3, Outcome.ok.injEq] at h
        push Not at h2 h3
        have hall := hfin (by omega)
        rw [Nat.zero_add] at hall
        have hn : n ≤ pr / c.size := by omega
        have h4 : n * c.size ≤ pr := (Nat.le_div_iff_mul_le c.size_pos).1 hn
        have h5 : pr ≤ n * c.size := le_trans hple (Nat.min_le_left _ _)
        refine ⟨?_, by omega, ?_⟩
        · rintro rfl
          rw [Nat.zero_mul, Nat.le_zero] at h5
          rw [h5] at h1
          simp at h1
        · rw [← h, hall, List.take_length]

/-- Decompressing a frame in one call. -/
theorem decompressFrame_eq (lz : Lz4) (c : Codec α) (f x : List UInt8) (n : ℕ)
    (hx : lz.content f = some x) (hn : n ≠ 0) (hl : x.length = n * c.size)
    (hone : lz.answer f 0 0 x.length = (f.length, x.length)) :
    decompressFrame lz c f n = .ok (ofBytes c x) := by
  unfold decompressFrame
  rw [hx]
  simp only
  rw [← hl, hone]
  simp only
  rw [hl, Nat.mul_div_cancel _ c.size_pos, if_neg hn, if_neg (by simp), if_neg (by simp), ← hl, List.take_length]

/-! ### The loop that reduces -/

theorem zipWith_take {β γ δ : Type} (op : β → γ → δ) (a : List β) (b : List γ) (k : ℕ) :
    List.zipWith op (a.take k) b = List.zipWith op (a.take k) (b.take k) := by
  induction a generalizing b k with
  | nil => simp
  | cons x a ih =>
    cases k with
    | zero => simp
    | succ k =>
      cases b with
      | nil => simp
      | cons y b => rw [List.take_succ_cons, List.take_succ_cons, List.zipWith_cons_cons, List.zipWith_cons_cons, ← ih]

/-- The values after the first `w` have been combined. -/
def partly (op : α → α → α) (d old : List α) (w : ℕ) : List α :=
  List.zipWith op (d.take w) (old.take w) ++ old.drop w

theorem partly_length (op : α → α → α) (d old : List α) (w : ℕ) (h : d.length = old.length) :
    (partly op d old w).length = old.length := by
  unfold partly
  rw [List.length_append, List.length_zipWith, List.length_take, List.length_take, List.length_drop, h,
    Nat.min_self]
  omega

theorem partly_take (op : α → α → α) (d old : List α) (w : ℕ) (h : d.length = old.length)
    (hw : w ≤ d.length) : (partly op d old w).take w = List.zipWith op (d.take w) (old.take w) := by
  unfold partly
  exact List.take_left' (by simp; omega)

theorem partly_drop (op : α → α → α) (d old : List α) (w : ℕ) (h : d.length = old.length)
    (hw : w ≤ d.length) : (partly op d old w).drop w = old.drop w := by
  unfold partly
  exact List.drop_left' (by simp; omega)

theorem partly_step (op : α → α → α) (d old : List α) (w k : ℕ) (h : d.length = old.length)
    (hw : w + k ≤ d.length) :
    (partly op d old w).take w ++ List.zipWith op ((d.drop w).take k) ((partly op d old w).drop w) ++
      (partly op d old w).drop (w + k) = partly op d old (w + k) := by
  rw [← List.drop_drop, partly_take op d old w h (by omega), partly_drop op d old w h (by omega),
    zipWith_take op (d.drop w), ← List.zipWith_append (by simp; omega), ← List.take_add, ← List.take_add, List.drop_drop]
  rfl

/-- The loop gives the combined values if at every state that can be reached (`P`) what LZ4 produces fits
into the buffer behind the rest. -/
theorem reduceLoop_eq (lz : Lz4) (c : Codec α) (op : α → α → α) (f : List UInt8) (d old : List α)
    (hx : lz.content f = some (toBytes c d)) (hl : d.length = old.length) (P : ℕ → Prop)
    (hP : ∀ r o, r < f.length → o ≤ (toBytes c d).length → P o →
      P (o + (lz.answer f r o bufferSize).2) ∧ o % c.size + (lz.answer f r o bufferSize).2 ≤ bufferSize)
    (fuel r o : ℕ) (hr : r < f.length) (ho : o ≤ (toBytes c d).length) (hPo : P o)
    (hfuel : f.length - r + ((toBytes c d).length - o) < fuel) :
    reduceLoop lz c op f (toBytes c d) fuel r o (((toBytes c d).take o).drop (o / c.size * c.size))
      (o / c.size) (partly op d old (o / c.size)) = .ok (List.zipWith op d old) := by
  induction fuel generalizing r o with
  | zero => omega
  | succ fuel ih =>
    have hs := c.size_pos
    have hcons := lz.consumed_le f r o bufferSize hr
    have hprod := lz.produced_le f _ r o bufferSize hx hr
    have hprog := lz.progress f r o bufferSize hr (by decide)
    have hfin := lz.finish f _ r o bufferSize hx hr ho
    obtain ⟨hP1, hP2⟩ := hP r o hr ho hPo
    have hxl := toBytes_length c d
    unfold reduceLoop
    simp only
    generalize (lz.answer f r o bufferSize).1 = co at *
    generalize (lz.answer f r o bufferSize).2 = pr at *
    have hpr : pr ≤ (toBytes c d).length - o := le_trans hprod (Nat.min_le_right _ _)
    have hdm := Nat.div_add_mod o c.size
    rw [Nat.mul_comm] at hdm
    have hrest : (((toBytes c d).take o).drop (o / c.size * c.size)).length = o % c.size := by
      rw [List.length_drop, List.length_take]
      omega
    rw [if_neg (show ¬ bufferSize < (((toBytes c d).take o).drop (o / c.size * c.size)).length + pr by
      rw [hrest]; omega)]
    have hbytes : ((toBytes c d).take o).drop (o / c.size * c.size) ++ ((toBytes c d).drop o).take pr =
        ((toBytes c d).take (o + pr)).drop (o / c.size * c.size) := by
      rw [List.take_add, List.drop_append_of_le_length]
      rw [List.length_take]
      omega
    rw [hbytes]
    have hbl : (((toBytes c d).take (o + pr)).drop (o / c.size * c.size)).length =
        o + pr - o / c.size * c.size := by
      rw [List.length_drop, List.length_take]
      omega
    have hmono : o / c.size ≤ (o + pr) / c.size := Nat.div_le_div_right (by omega)
    have hfull : (o + pr - o / c.size * c.size) / c.size = (o + pr) / c.size - o / c.size := by
      rw [Nat.mul_comm, Nat.sub_mul_div]
    rw [hbl, hfull, Nat.add_sub_cancel' hmono]
    have hw' : (o + pr) / c.size ≤ d.length := by
      have := Nat.div_le_div_right (c := c.size) (show o + pr ≤ (toBytes c d).length by omega)
      rwa [hxl, Nat.mul_div_cancel _ hs] at this
    rw [partly_length op d old _ hl, if_neg (by omega)]
    have hof : ofBytes c (((toBytes c d).take (o + pr)).drop (o / c.size * c.size)) =
        (d.drop (o / c.size)).take ((o + pr) / c.size - o / c.size) := by
      refine ofBytes_prefix c _ _ _ ?_ (by rw [hbl, hfull]) ?_
      · rw [List.length_drop]
        omega
      · rw [toBytes_drop]
        refine ⟨(toBytes c d).drop (o + pr), ?_⟩
        conv_lhs => rw [← List.take_append_drop (o + pr) (toBytes c d)]
        rw [List.drop_append_of_le_length]
        rw [List.length_take]
        omega
    have hstep := partly_step op d old (o / c.size) ((o + pr) / c.size - o / c.size) hl (by omega)
    rw [Nat.add_sub_cancel' hmono] at hstep
    rw [hof, hstep]
    by_cases hend : r + co = f.length
    · have hall := hfin hend
      have hwd : (o + pr) / c.size = d.length := by rw [hall, hxl, Nat.mul_div_cancel _ hs]
      rw [if_pos hend, if_pos (by rw [hwd, hl]), hwd]
      unfold partly
      rw [List.take_length, hl, List.take_length, List.drop_length, List.append_nil]
    · rw [if_neg hend, List.drop_drop, ← Nat.add_mul, Nat.add_sub_cancel' hmono]
      exact ih (r + co) (o + pr) (by omega) (by omega) hP1 (by omega)

end Verif.Compression
