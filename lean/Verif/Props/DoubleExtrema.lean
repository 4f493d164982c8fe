import Verif.Props.DoubleErrors
import Mathlib.Data.EReal.Basic
/-!
# Greatest and least of floats (C167)

The comparison of doubles is no linear order: NaN is neither less nor greater than anything, and 0 and -0 are equal without being the same. So C37
does not apply to them.
-/

namespace Prexel
open B64

/-- Where a double is on the line of the real numbers with both infinities; NaN is nowhere on it. -/
noncomputable def B64.place : B64 → EReal
  | .nan => 0
  | .inf true => ⊥
  | .inf false => ⊤
  | x@(.fin _ _ _) => ((x.val : ℝ) : EReal)

/-- `m` is the first of the numbers of the list on which none is further in the direction `before`; NaN does not count. -/
def FirstBest (before : EReal → EReal → Prop) (xs : List B64) (m : B64) : Prop :=
  ∃ front back, xs = front ++ m :: back ∧ m ≠ .nan ∧ (∀ a ∈ front, a ≠ .nan → before a.place m.place) ∧
    ∀ a ∈ back, a ≠ .nan → ¬ before m.place a.place

namespace B64

/-- The comparison of doubles is that of their places. -/
theorem lt_place (x y : B64) : lt x y = true ↔ x ≠ .nan ∧ y ≠ .nan ∧ x.place < y.place := by
  rcases x with - | a | ⟨a, k, hk⟩ <;> rcases y with - | b | ⟨b, j, hj⟩
  · simp [lt]
  · simp [lt]
  · simp [lt]
  · simp [lt]
  · cases a <;> cases b <;> simp [lt, place]
  · cases a <;> simp [lt, place]
  · simp [lt]
  · cases b <;> simp [lt, place]
  · have : (B64.fin a k hk).place < (B64.fin b j hj).place ↔ (B64.fin a k hk).val < (B64.fin b j hj).val := by
      show (((B64.fin a k hk).val : ℝ) : EReal) < (((B64.fin b j hj).val : ℝ) : EReal) ↔ _
      rw [EReal.coe_lt_coe_iff, Rat.cast_lt]
    simp [lt, this]

theorem best_first {before : EReal → EReal → Prop} (trans : ∀ a b c, before a b → before b c → before a c)
    (leave : ∀ a b c, ¬ before b a → before b c → before a c) {better : B64 → B64 → Bool}
    (hb : ∀ x r, better x r = true ↔ x ≠ .nan ∧ r ≠ .nan ∧ before r.place x.place) (xs : List B64) :
    ∀ r : B64, r ≠ .nan → ∃ m, Ops.best better (some r) xs = some m ∧ FirstBest before (r :: xs) m ∧
      (m = r ∨ before r.place m.place) := by
  induction xs with
  | nil => exact fun r hr => ⟨r, rfl, ⟨[], [], rfl, hr, by simp, by simp⟩, .inl rfl⟩
  | cons x xs ih =>
    intro r hr
    by_cases hx : better x r = true
    · obtain ⟨x1, -, x2⟩ := (hb x r).mp hx
      obtain ⟨m, m1, ⟨front, back, e, m2, m3, m4⟩, m5⟩ := ih x x1
      have hrm : before r.place m.place := by
        rcases m5 with rfl | h
        · exact x2
        · exact trans _ _ _ x2 h
      refine ⟨m, by unfold Ops.best; rw [if_pos hx]; exact m1, ⟨r :: front, back, by rw [e]; rfl, m2, ?_, m4⟩, .inr hrm⟩
      intro a ha hn
      rcases List.mem_cons.mp ha with rfl | ha
      · exact hrm
      · exact m3 a ha hn
    · obtain ⟨m, m1, ⟨front, back, e, m2, m3, m4⟩, m5⟩ := ih r hr
      have hxr : x ≠ .nan → ¬ before r.place x.place := fun h1 h2 => hx ((hb x r).mpr ⟨h1, hr, h2⟩)
      refine ⟨m, by unfold Ops.best; rw [if_neg hx]; exact m1, ?_, m5⟩
      rcases front with - | ⟨f, front⟩
      · obtain ⟨rfl, rfl⟩ : r = m ∧ xs = back := by simpa using e
        refine ⟨[], x :: xs, rfl, m2, by simp, ?_⟩
        intro a ha hn
        rcases List.mem_cons.mp ha with rfl | ha
        · exact hxr hn
        · exact m4 a ha hn
      · obtain ⟨rfl, rfl⟩ : r = f ∧ xs = front ++ m :: back := by simpa using e
        refine ⟨r :: x :: front, back, rfl, m2, ?_, m4⟩
        have hrm : before r.place m.place := m3 r (by simp) hr
        intro a ha hn
        rcases List.mem_cons.mp ha with rfl | ha
        · exact hrm
        · rcases List.mem_cons.mp ha with rfl | ha
          · exact leave _ _ _ (hxr hn) hrm
          · exact m3 a (by simp [ha]) hn

theorem best_nan {better : B64 → B64 → Bool} (h : ∀ x, better x .nan = false) (xs : List B64) : Ops.best better (some .nan) xs = some .nan := by
  induction xs with
  | nil => rfl
  | cons x xs ih =>
    unfold Ops.best
    rw [if_neg (by rw [h]; simp)]
    exact ih

end B64

section
variable {K : Keys} {debug docs : Bool} {lib : Libm} {draw : B64} {ctx : Ctx B64}

theorem extremum_cons (better : B64 → B64 → Bool) (x : B64) (xs : List B64) (h0 : xs ≠ []) :
    Ops.extremum better (x :: xs) = Res.ofOption (Ops.best better (some x) xs) .invalidArgumentCount := by
  have : ¬ (x :: xs).length ≤ 1 := by
    have := List.length_pos_iff.mpr h0
    simp only [List.length_cons]
    omega
  unfold Ops.extremum
  rw [if_neg this]
  rfl

/-- C167: `max` gives the first of the greatest numbers and `min` the first of the least, if the first argument is a number. -/
theorem C167_first (h : BuiltIn K debug docs (f64 lib draw) ((f64 lib draw).num B64.num) ctx) (x : B64) (xs : List B64) (h0 : xs ≠ []) (hx : x ≠ .nan) :
    (∃ m, evalTokens ctx (callTokens (str "max") (x :: xs)) = .ok m ∧ FirstBest (· < ·) (x :: xs) m) ∧
    (∃ m, evalTokens ctx (callTokens (str "min") (x :: xs)) = .ok m ∧ FirstBest (· > ·) (x :: xs) m) := by
  constructor
  · obtain ⟨m, m1, m2, -⟩ := best_first (before := (· < ·)) (fun _ _ _ => lt_trans) (fun _ _ _ h1 h2 => lt_of_le_of_lt (not_lt.mp h1) h2)
      (better := fun n m => B64.lt m n) (fun x r => by rw [lt_place]; tauto) xs x hx
    refine ⟨m, ?_, m2⟩
    rw [builtIn_call h (name := str "max") (g := (Ops.max ((f64 lib draw).num B64.num)).fn) (by rfl) (by cases docs <;> rfl)]
    refine (extremum_cons _ x xs h0).trans ?_
    refine (congrArg (Res.ofOption · _) m1).trans rfl
  · obtain ⟨m, m1, m2, -⟩ := best_first (before := (· > ·)) (fun _ _ _ => gt_trans) (fun _ _ _ h1 h2 => lt_of_lt_of_le h2 (not_lt.mp h1))
      (better := B64.lt) (fun x r => by rw [lt_place]) xs x hx
    refine ⟨m, ?_, m2⟩
    rw [builtIn_call h (name := str "min") (g := (Ops.min ((f64 lib draw).num B64.num)).fn) (by rfl) (by cases docs <;> rfl)]
    refine (extremum_cons _ x xs h0).trans ?_
    refine (congrArg (Res.ofOption · _) m1).trans rfl

/-- There is only one such number, so the theorem says which it is. -/
theorem FirstBest.unique {before : EReal → EReal → Prop} {xs : List B64} {m m' : B64} (h : FirstBest before xs m) (h' : FirstBest before xs m') : m = m' := by
  obtain ⟨f, b, e, m1, m2, m3⟩ := h
  obtain ⟨f', b', e', m1', m2', m3'⟩ := h'
  rw [e] at e'
  rcases List.append_eq_append_iff.mp e' with ⟨c, e1, e2⟩ | ⟨c, e1, e2⟩
  · rcases c with - | ⟨c, cs⟩
    · simpa using (List.cons.inj e2).1
    · obtain ⟨rfl, rfl⟩ := List.cons.inj e2
      exact absurd (m2' m (by rw [e1]; simp) m1) (m3 m' (by simp) m1')
  · rcases c with - | ⟨c, cs⟩
    · simpa using (List.cons.inj e2).1.symm
    · obtain ⟨rfl, rfl⟩ := List.cons.inj e2
      exact absurd (m2 m' (by rw [e1]; simp) m1') (m3' m (by simp) m1)

/-- C167: if the first argument is NaN, so is the result, whatever the others are. -/
theorem C167_nan (h : BuiltIn K debug docs (f64 lib draw) ((f64 lib draw).num B64.num) ctx) (xs : List B64) (h0 : xs ≠ []) :
    evalTokens ctx (callTokens (str "max") (.nan :: xs)) = .ok .nan ∧ evalTokens ctx (callTokens (str "min") (.nan :: xs)) = .ok .nan := by
  constructor
  · rw [builtIn_call h (name := str "max") (g := (Ops.max ((f64 lib draw).num B64.num)).fn) (by rfl) (by cases docs <;> rfl)]
    refine (extremum_cons _ _ xs h0).trans ?_
    refine (congrArg (Res.ofOption · _) (best_nan (fun x => rfl) xs)).trans rfl
  · rw [builtIn_call h (name := str "min") (g := (Ops.min ((f64 lib draw).num B64.num)).fn) (by rfl) (by cases docs <;> rfl)]
    refine (extremum_cons _ _ xs h0).trans ?_
    refine (congrArg (Res.ofOption · _) (best_nan (fun x => by cases x <;> rfl) xs)).trans rfl

/-- The order of the arguments matters only for NaN and zero: lists of numbers in another order have an extremum at the same place. -/
theorem C167_order (h : BuiltIn K debug docs (f64 lib draw) ((f64 lib draw).num B64.num) ctx) (xs ys : List B64) (hp : xs.Perm ys) (h2 : 2 ≤ xs.length)
    (hn : ∀ a ∈ xs, a ≠ .nan) :
    (∃ m u, evalTokens ctx (callTokens (str "max") xs) = .ok m ∧ evalTokens ctx (callTokens (str "max") ys) = .ok u ∧ m.place = u.place) ∧
    (∃ m u, evalTokens ctx (callTokens (str "min") xs) = .ok m ∧ evalTokens ctx (callTokens (str "min") ys) = .ok u ∧ m.place = u.place) := by
  have hn' : ∀ a ∈ ys, a ≠ .nan := fun a ha => hn a (hp.mem_iff.mpr ha)
  have h2' : 2 ≤ ys.length := hp.length_eq ▸ h2
  obtain ⟨x, xs', rfl⟩ : ∃ x xs', xs = x :: xs' := by cases xs with | nil => simp at h2 | cons a b => exact ⟨a, b, rfl⟩
  obtain ⟨y, ys', rfl⟩ : ∃ y ys', ys = y :: ys' := by cases ys with | nil => simp at h2' | cons a b => exact ⟨a, b, rfl⟩
  have n1 : xs' ≠ [] := by rintro rfl; simp at h2
  have n2 : ys' ≠ [] := by rintro rfl; simp at h2'
  obtain ⟨⟨m, m1, m2⟩, ⟨k, k1, k2⟩⟩ := C167_first h x xs' n1 (hn x (by simp))
  obtain ⟨⟨u, u1, u2⟩, ⟨l, l1, l2⟩⟩ := C167_first h y ys' n2 (hn' y (by simp))
  have all : ∀ {before : EReal → EReal → Prop} (ha : ∀ a b, before a b → ¬ before b a) {zs : List B64} {m : B64}, FirstBest before zs m →
      m ∈ zs ∧ m ≠ .nan ∧ ∀ a ∈ zs, a ≠ .nan → ¬ before m.place a.place := by
    rintro before ha zs m ⟨f, b, rfl, h1, h2, h3⟩
    refine ⟨by simp, h1, fun a hm hn => ?_⟩
    rcases List.mem_append.mp hm with hm | hm
    · exact ha _ _ (h2 a hm hn)
    · rcases List.mem_cons.mp hm with rfl | hm
      · intro h; exact ha _ _ h h
      · exact h3 a hm hn
  obtain ⟨a1, a2, a3⟩ := all (fun a b (h : a < b) => h.asymm) m2
  obtain ⟨b1, b2, b3⟩ := all (fun a b (h : a < b) => h.asymm) u2
  obtain ⟨c1, c2, c3⟩ := all (fun a b (h : a > b) => h.asymm) k2
  obtain ⟨d1, d2, d3⟩ := all (fun a b (h : a > b) => h.asymm) l2
  refine ⟨⟨m, u, m1, u1, ?_⟩, ⟨k, l, k1, l1, ?_⟩⟩
  · exact le_antisymm (not_lt.mp (b3 m (hp.mem_iff.mp a1) a2)) (not_lt.mp (a3 u (hp.mem_iff.mpr b1) b2))
  · exact le_antisymm (not_lt.mp (c3 l (hp.mem_iff.mpr d1) d2)) (not_lt.mp (d3 k (hp.mem_iff.mp c1) c2))

/-- C167, the order of the arguments: with NaN it matters. -/
theorem C167_order_counterexample (h : BuiltIn K debug docs (f64 lib draw) ((f64 lib draw).num B64.num) ctx) :
    evalTokens ctx (callTokens (str "max") [.nan, lit 1]) = .ok .nan ∧ evalTokens ctx (callTokens (str "max") [lit 1, .nan]) = .ok (lit 1) := by
  refine ⟨(C167_nan h [lit 1] (by simp)).1, ?_⟩
  have hn : lit 1 ≠ .nan := fun e => by have := one_double; rw [e] at this; exact absurd this.1 (by simp [isNan])
  obtain ⟨⟨m, m1, m2⟩, -⟩ := C167_first h (lit 1) [.nan] (by simp) hn
  have : FirstBest (· < ·) [lit 1, .nan] (lit 1) := ⟨[], [.nan], rfl, hn, by simp, by simp⟩
  rw [m1, m2.unique this]
where
  one_double : (lit 1).isFin := ⟨by decide +kernel, by decide +kernel⟩

/-- The hypotheses are met by 3, NaN, infinity. -/
example : lit 3 ≠ .nan ∧ [B64.nan, .inf false] ≠ [] ∧ FirstBest (· < ·) [lit 3, .nan, .inf false] (.inf false) ∧
    FirstBest (· > ·) [lit 3, .nan, .inf false] (lit 3) := by
  have f : (lit 3).isFin := ⟨by decide +kernel, by decide +kernel⟩
  obtain ⟨a, k, hk, e⟩ := isFin_fin f
  have hn : lit 3 ≠ .nan := by rw [e]; simp
  refine ⟨hn, by simp, ⟨[lit 3, .nan], [], rfl, by simp, ?_, by simp⟩, ⟨[], [.nan, .inf false], rfl, hn, by simp, ?_⟩⟩
  · intro x hx hx'
    simp only [List.mem_cons, List.not_mem_nil, or_false] at hx
    rcases hx with rfl | rfl
    · rw [e]; exact EReal.coe_lt_top _
    · exact absurd rfl hx'
  · intro x hx hx'
    simp only [List.mem_cons, List.not_mem_nil, or_false] at hx
    rcases hx with rfl | rfl
    · exact absurd rfl hx'
    · exact not_lt.mpr le_top

end

end Prexel
