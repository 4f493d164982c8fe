import Verif.Props.Integer
/-!
# More built-in functions (C37, C38, C58, C59)
-/

set_option linter.unusedVariables false
set_option linter.unusedSimpArgs false

namespace Prexel
variable {N F : Type} {w : Width}

/-! ## C37: max and min -/

/-- A strict linear order. -/
structure StrictLinear (lt : N → N → Bool) : Prop where
  irrefl : ∀ x, lt x x = false
  trans : ∀ x y z, lt x y = true → lt y z = true → lt x z = true
  total : ∀ x y, lt x y = true ∨ x = y ∨ lt y x = true

theorem StrictLinear.swap {lt : N → N → Bool} (h : StrictLinear lt) : StrictLinear fun x y => lt y x where
  irrefl := h.irrefl
  trans x y z h1 h2 := h.trans _ _ _ h2 h1
  total x y := by rcases h.total x y with h | h | h <;> simp_all

/-- Neither is better: equal. -/
theorem StrictLinear.antisymm {lt : N → N → Bool} (h : StrictLinear lt) {x y : N} (h1 : lt x y = false) (h2 : lt y x = false) : x = y := by
  rcases h.total x y with h | h | h
  · rw [h1] at h; cases h
  · exact h
  · rw [h2] at h; cases h

theorem best_spec {better : N → N → Bool} (h : StrictLinear better) (r : N) (xs : List N) :
    ∃ m, Ops.best better (some r) xs = some m ∧ m ∈ r :: xs ∧ ∀ y ∈ r :: xs, better y m = false := by
  induction xs generalizing r with
  | nil => exact ⟨r, rfl, by simp, by simp [h.irrefl]⟩
  | cons x xs ih =>
    obtain ⟨m, h1, h2, h3⟩ := ih (if better x r then x else r)
    refine ⟨m, h1, ?_, ?_⟩
    · rcases List.mem_cons.mp h2 with h2 | h2
      · subst h2; split <;> simp
      · simp [h2]
    · intro y hy
      have hb := h3 _ (List.mem_cons_self ..)
      rcases List.mem_cons.mp hy with rfl | hy
      · split at hb
        · rename_i hx
          cases hc : better y m with
          | false => rfl
          | true => rw [h.trans _ _ _ hx hc] at hb; cases hb
        · exact hb
      · rcases List.mem_cons.mp hy with rfl | hy
        · split at hb
          · exact hb
          · rename_i hx
            simp only [Bool.not_eq_true] at hx
            cases hc : better y m with
            | false => rfl
            | true =>
              rcases h.total y r with h4 | h4 | h4
              · rw [h4] at hx; cases hx
              · subst h4; rw [hc] at hb; cases hb
              · rw [h.trans _ _ _ h4 hc] at hb; cases hb
        · exact h3 y (by simp [hy])

theorem extremum_spec {better : N → N → Bool} (h : StrictLinear better) (xs : List N) (hx : 2 ≤ xs.length) :
    ∃ m ∈ xs, Ops.extremum better xs = .ok m ∧ ∀ y ∈ xs, better y m = false := by
  cases xs with
  | nil => simp at hx
  | cons x xs =>
    obtain ⟨m, h1, h2, h3⟩ := best_spec h x xs
    refine ⟨m, h2, ?_, h3⟩
    unfold Ops.extremum
    have : ¬ (x :: xs).length ≤ 1 := by omega
    rw [if_neg this]
    show Res.ofOption (Ops.best better (some x) xs) _ = _
    rw [h1]; rfl

theorem extremum_perm {better : N → N → Bool} (h : StrictLinear better) {xs ys : List N} (hp : xs.Perm ys) :
    Ops.extremum better xs = Ops.extremum better ys := by
  by_cases hx : 2 ≤ xs.length
  · obtain ⟨m, h1, h2, h3⟩ := extremum_spec h xs hx
    obtain ⟨u, h4, h5, h6⟩ := extremum_spec h ys (hp.length_eq ▸ hx)
    rw [h2, h5]
    exact congrArg Res.ok (h.antisymm (h6 m (hp.mem_iff.mp h1)) (h3 u (hp.mem_iff.mpr h4)))
  · have h1 : xs.length ≤ 1 := by omega
    have h2 : ys.length ≤ 1 := hp.length_eq ▸ h1
    simp [Ops.extremum, h1, h2]

/-- What C37 says of the calls `max(...)` and `min(...)` in a context. -/
def IsMaxMin (ctx : Ctx N) (lt : N → N → Bool) : Prop :=
  (∀ xs : List N, 2 ≤ xs.length →
    (∃ m ∈ xs, evalTokens ctx (callTokens (str "max") xs) = .ok m ∧ ∀ y ∈ xs, lt m y = false) ∧
    (∃ m ∈ xs, evalTokens ctx (callTokens (str "min") xs) = .ok m ∧ ∀ y ∈ xs, lt y m = false)) ∧
  (∀ xs : List N, xs.length < 2 →
    evalTokens ctx (callTokens (str "max") xs) = .err .invalidArgumentCount ∧
    evalTokens ctx (callTokens (str "min") xs) = .err .invalidArgumentCount) ∧
  (∀ xs ys : List N, xs.Perm ys →
    evalTokens ctx (callTokens (str "max") xs) = evalTokens ctx (callTokens (str "max") ys) ∧
    evalTokens ctx (callTokens (str "min") xs) = evalTokens ctx (callTokens (str "min") ys))

theorem isMaxMin {ctx : Ctx N} {num : Num N F} (h : StrictLinear num.lt)
    (h1 : ∀ xs, evalTokens ctx (callTokens (str "max") xs) = (Ops.max num).fn xs)
    (h2 : ∀ xs, evalTokens ctx (callTokens (str "min") xs) = (Ops.min num).fn xs) : IsMaxMin ctx num.lt := by
  simp only [IsMaxMin, h1, h2]
  refine ⟨fun xs hx => ⟨extremum_spec h.swap xs hx, extremum_spec h xs hx⟩, fun xs hx => ?_, fun xs ys hp =>
    ⟨extremum_perm h.swap hp, extremum_perm h hp⟩⟩
  have : xs.length ≤ 1 := by omega
  simp [Ops.max, Ops.min, Ops.extremum, this]

/-- C37. If `<` is a strict linear order on the number type, then in the checked and in the unchecked context `max` returns an argument that no
argument exceeds, `min` one that no argument is less than, whatever the order of the arguments; with fewer than two arguments they return
`InvalidArgumentCount`. -/
theorem C37_max_min (K : Keys) (debug docs : Bool) (f : F64 F) (num : Num N F) (h : StrictLinear num.lt) (config : Config) (c : Context N)
    (hc : Context.checked K debug docs f num config = .ok c ∨ Context.unchecked K debug f num config = .ok c) (os : List (Op N)) :
    IsMaxMin ((c.runAll K debug os).view K) num.lt := by
  rcases hc with hc | hc
  · exact isMaxMin h (checked_call hc os (by rfl)) (checked_call hc os (by rfl))
  · exact isMaxMin h (unchecked_call hc os (by rfl)) (unchecked_call hc os (by rfl))

/-- Integers are linearly ordered. -/
theorem sint_linear (debug : Bool) (toF64 : SInt w → F) (fromF64 : F → Option (SInt w)) : StrictLinear (SInt.num w debug toF64 fromF64).lt where
  irrefl x := by show decide (x.1 < x.1) = false; simp
  trans x y z h1 h2 := by
    have h1' : x.1 < y.1 := of_decide_eq_true h1
    have h2' : y.1 < z.1 := of_decide_eq_true h2
    exact decide_eq_true (Int.lt_trans h1' h2')
  total x y := by
    rcases Int.lt_trichotomy x.1 y.1 with h | h | h
    · exact .inl (decide_eq_true h)
    · exact .inr (.inl (Subtype.ext h))
    · exact .inr (.inr (decide_eq_true h))

/-- Without a linear order (floating point with NaN) the result depends on the order: of two arguments that do not compare, `max` returns the
first. -/
theorem C37_unordered (K : Keys) (debug docs : Bool) (f : F64 F) (num : Num N F) (config : Config) (c : Context N)
    (hc : Context.checked K debug docs f num config = .ok c ∨ Context.unchecked K debug f num config = .ok c) (x y : N)
    (h1 : num.lt x y = false) (h2 : num.lt y x = false) :
    evalTokens (c.view K) (callTokens (str "max") [x, y]) = .ok x ∧ evalTokens (c.view K) (callTokens (str "max") [y, x]) = .ok y ∧
    evalTokens (c.view K) (callTokens (str "min") [x, y]) = .ok x ∧ evalTokens (c.view K) (callTokens (str "min") [y, x]) = .ok y := by
  rcases hc with hc | hc
  · have e1 := checked_call hc [] (name := str "max") (g := (Ops.max num).fn) (by rfl)
    have e2 := checked_call hc [] (name := str "min") (g := (Ops.min num).fn) (by rfl)
    exact ⟨(e1 _).trans (by simp [Ops.max, Ops.extremum, Ops.best, h1, h2, Res.ofOption]),
      (e1 _).trans (by simp [Ops.max, Ops.extremum, Ops.best, h1, h2, Res.ofOption]),
      (e2 _).trans (by simp [Ops.min, Ops.extremum, Ops.best, h1, h2, Res.ofOption]),
      (e2 _).trans (by simp [Ops.min, Ops.extremum, Ops.best, h1, h2, Res.ofOption])⟩
  · have e1 := unchecked_call hc [] (name := str "max") (g := (Ops.max num).fn) (by rfl)
    have e2 := unchecked_call hc [] (name := str "min") (g := (Ops.min num).fn) (by rfl)
    exact ⟨(e1 _).trans (by simp [Ops.max, Ops.extremum, Ops.best, h1, h2, Res.ofOption]),
      (e1 _).trans (by simp [Ops.max, Ops.extremum, Ops.best, h1, h2, Res.ofOption]),
      (e2 _).trans (by simp [Ops.min, Ops.extremum, Ops.best, h1, h2, Res.ofOption]),
      (e2 _).trans (by simp [Ops.min, Ops.extremum, Ops.best, h1, h2, Res.ofOption])⟩

example : ∃ c, Context.checked Demo.keys true false Demo.float (Demo.int i32 true) Config.new = .ok c ∧
    ∃ m ∈ [Demo.i32 3, Demo.i32 9, Demo.i32 (-5)], evalTokens (c.view Demo.keys) (callTokens (str "max") [Demo.i32 3, Demo.i32 9, Demo.i32 (-5)]) = .ok m ∧
      m = Demo.i32 9 := by
  obtain ⟨c, hc⟩ := demo_checked true false
  obtain ⟨m, h1, h2, h3⟩ := ((C37_max_min Demo.keys true false Demo.float _ (sint_linear true _ _) Config.new c (.inl hc) []).1
    [Demo.i32 3, Demo.i32 9, Demo.i32 (-5)] (by decide)).1
  refine ⟨c, hc, m, h1, h2, ?_⟩
  have := h3 (Demo.i32 9) (by decide)
  simp only [List.mem_cons, List.not_mem_nil, or_false] at h1
  rcases h1 with rfl | rfl | rfl
  · exact absurd this (by decide)
  · rfl
  · exact absurd this (by decide)

/-! ## C38: avg -/

/-- C38, the part that holds: if the number of arguments fits the type, `avg` is the exact sum divided by their number (rounded towards zero)
if the sums of all beginnings fit, `Overflow` if not, and `InvalidArgumentCount` without arguments. Missing: more arguments than the type can
count, see the counterexample. -/
theorem C38_avg_partial (K : Keys) (debug docs : Bool) (f : F64 F) (toF64 : SInt w → F) (fromF64 : F → Option (SInt w))
    (config : Config) (c : Context (SInt w))
    (hc : Context.checked K debug docs f (SInt.num w debug toF64 fromF64) config = .ok c) (os : List (Op (SInt w))) (xs : List (SInt w))
    (hlen : w.Fits xs.length) :
    let r := evalTokens ((c.runAll K debug os).view K) (callTokens (str "avg") xs)
    (xs = [] → r = .err .invalidArgumentCount) ∧
    (xs ≠ [] → PrefixesFit total xs → ∃ v, r = .ok v ∧ v.1 = (total xs).tdiv xs.length) ∧
    (xs ≠ [] → ¬ PrefixesFit total xs → r = .err .overflow) := by
  intro r
  have hr : r = (Ops.checkedAvg (SInt.num w debug toF64 fromF64)).fn xs := checked_call hc os (by rfl) xs
  rw [hr]
  have hs : (fun x y => Ops.orOverflow ((SInt.num w debug toF64 fromF64).checkedAdd x y)) = step (w := w) (· + ·) := rfl
  refine ⟨fun h => by subst h; rfl, fun h hp => ?_, fun h hp => ?_⟩
  all_goals
    obtain ⟨x, ys, rfl⟩ : ∃ x ys, xs = x :: ys := by
      cases xs with
      | nil => exact absurd rfl h
      | cons x ys => exact ⟨x, ys, rfl⟩
    simp only [Ops.checkedAvg, hs]
    rcases foldArgs_cases (g := (· + ·)) (f := total) (fun x xs => runInt_add x.1 xs) x ys with ⟨h1, v, h2, h3⟩ | ⟨h1, h2⟩
  · have hlen' : ((x :: ys).length : Int) ≠ 0 := by simp only [List.length_cons]; omega
    have hneg : ((x :: ys).length : Int) ≠ -1 := by omega
    have hd := SInt.tdiv_fits v ⟨((x :: ys).length : Int), hlen⟩ (by intro ⟨_, h⟩; exact hneg h) hlen'
    refine ⟨⟨_, hd⟩, ?_, congrArg (fun z : Int => z.tdiv ((x :: ys).length : Int)) h3⟩
    rw [h2]
    have hu : (SInt.num w debug toF64 fromF64).fromUsize (x :: ys).length = some ⟨((x :: ys).length : Int), hlen⟩ := SInt.of?_fits hlen
    simp only [Res.bind_ok, hu]
    show Ops.orOverflow (SInt.checkedDivision Int.tdiv v ⟨((x :: ys).length : Int), hlen⟩) = _
    unfold SInt.checkedDivision
    rw [if_neg hlen', if_neg (fun ⟨_, h⟩ => hneg h), SInt.of?_fits hd]
    rfl
  · exact absurd hp h1
  · exact absurd h1 hp
  · rw [h2]; rfl

/-- C38 is false if there are more arguments than the number type can count and the sum fits: `avg` panics, in every build. -/
theorem C38_avg_counterexample (K : Keys) (debug docs : Bool) (f : F64 F) (toF64 : SInt w → F) (fromF64 : F → Option (SInt w))
    (config : Config) (c : Context (SInt w))
    (hc : Context.checked K debug docs f (SInt.num w debug toF64 fromF64) config = .ok c) (xs : List (SInt w))
    (hlen : ¬ w.Fits xs.length) (hp : PrefixesFit total xs) :
    evalTokens (c.view K) (callTokens (str "avg") xs) = .panic := by
  have hr := checked_call hc [] (name := str "avg") (g := (Ops.checkedAvg (SInt.num w debug toF64 fromF64)).fn) (by rfl) xs
  refine hr.trans ?_
  have hs : (fun x y => Ops.orOverflow ((SInt.num w debug toF64 fromF64).checkedAdd x y)) = step (w := w) (· + ·) := rfl
  cases xs with
  | nil => exact absurd (SInt.ofNat1 0 (by decide) : SInt w).2 hlen
  | cons x ys =>
    simp only [Ops.checkedAvg, hs]
    rcases foldArgs_cases (g := (· + ·)) (f := total) (fun x xs => runInt_add x.1 xs) x ys with ⟨h1, v, h2, h3⟩ | ⟨h1, h2⟩
    · rw [h2]
      have hu : (SInt.num w debug toF64 fromF64).fromUsize (x :: ys).length = none := SInt.of?_eq_none.mpr hlen
      simp only [Res.bind_ok, hu]
    · exact absurd hp h1

theorem total_zeros (n : Nat) : total (List.replicate n (SInt.ofNat1 0 (by decide) : SInt w)) = 0 := by
  induction n with
  | zero => rfl
  | succ n ih => rw [List.replicate_succ, total, ih]; rfl

/-- `avg` of `MAX + 1` zeros panics, in every width; for `i8` these are 128 arguments. -/
theorem C38_avg_zeros_counterexample (K : Keys) (debug docs : Bool) (f : F64 F) (toF64 : SInt w → F) (fromF64 : F → Option (SInt w))
    (config : Config) (c : Context (SInt w))
    (hc : Context.checked K debug docs f (SInt.num w debug toF64 fromF64) config = .ok c) :
    evalTokens (c.view K) (callTokens (str "avg") (List.replicate (2 ^ w.bits) (SInt.ofNat1 0 (by decide)))) = .panic := by
  refine C38_avg_counterexample K debug docs f toF64 fromF64 config c hc _ ?_ ?_
  · rintro ⟨_, h⟩
    simp only [List.length_replicate, Width.hi] at h
    omega
  · intro k hk hk'
    rw [List.take_replicate, total_zeros]
    exact (SInt.ofNat1 0 (by decide) : SInt w).2

/-- A one-byte integer: `i8`. -/
def i8 : Width := ⟨7, by decide⟩

example : ∃ c, Context.checked Demo.keys true false Demo.float (Demo.int i8 true) Config.new = .ok c ∧
    evalTokens (c.view Demo.keys) (callTokens (str "avg") (List.replicate 128 (SInt.ofNat1 0 (by decide)))) = .panic := by
  obtain ⟨c, hc, -⟩ := checked_build Demo.keys true false Demo.float (Demo.int i8 true) Config.new ⟨3, by decide⟩ ⟨2, by decide⟩ (by decide) (by decide)
  exact ⟨c, hc, C38_avg_zeros_counterexample Demo.keys true false Demo.float _ _ Config.new c hc⟩

example : ∃ c, Context.checked Demo.keys true false Demo.float (Demo.int i32 true) Config.new = .ok c ∧
    evalTokens (c.view Demo.keys) (callTokens (str "avg") [Demo.i32 3, Demo.i32 8]) = .ok (Demo.i32 5) := by
  obtain ⟨c, hc⟩ := demo_checked true false
  obtain ⟨v, h3, h4⟩ := (C38_avg_partial Demo.keys true false Demo.float _ _ Config.new c hc [] [Demo.i32 3, Demo.i32 8] (by decide)).2.1 (by simp)
    (by intro k h1 h2
        have : k = 1 ∨ k = 2 := by simp at h2; omega
        rcases this with rfl | rfl <;> decide)
  have : v = Demo.i32 5 := Subtype.ext (h4.trans (by decide))
  exact ⟨c, hc, h3.trans (congrArg Res.ok this)⟩

/-! ## C58: abs -/

/-- C58. `abs(x)` is the exact absolute value, or `Overflow` exactly for `MIN`; with any other number of arguments it is
`InvalidArgumentCount`. -/
theorem C58_abs (K : Keys) (debug docs : Bool) (f : F64 F) (toF64 : SInt w → F) (fromF64 : F → Option (SInt w))
    (config : Config) (c : Context (SInt w))
    (hc : Context.checked K debug docs f (SInt.num w debug toF64 fromF64) config = .ok c) (os : List (Op (SInt w))) (xs : List (SInt w)) :
    let r := evalTokens ((c.runAll K debug os).view K) (callTokens (str "abs") xs)
    (∀ x, xs = [x] → x.1 ≠ w.lo → ∃ v, r = .ok v ∧ v.1 = x.1.natAbs) ∧
    (∀ x, xs = [x] → x.1 = w.lo → r = .err .overflow) ∧
    (xs.length ≠ 1 → r = .err .invalidArgumentCount) := by
  intro r
  have hr : r = (Ops.checkedAbs (SInt.num w debug toF64 fromF64)).fn xs := checked_call hc os (by cases docs <;> rfl) xs
  rw [hr]
  have key : ∀ x, (Ops.checkedAbs (SInt.num w debug toF64 fromF64)).fn [x] =
      if 0 ≤ x.1 then .ok x else Ops.orOverflow (SInt.of? (-x.1)) := by
    intro x
    show (if decide ((0 : Int) ≤ x.1) = true then Res.ok x else Ops.orOverflow (SInt.of? (-x.1))) = _
    simp only [decide_eq_true_eq]
  refine ⟨?_, ?_, ?_⟩
  · rintro x rfl hx
    rw [key]
    split
    · rename_i h; exact ⟨x, rfl, by omega⟩
    · have : w.Fits (-x.1) := by
        have := x.2
        have h1 := SInt.hi_eq w
        have h2 := SInt.lo_lt_zero w
        refine ⟨by omega, ?_⟩
        have := this.1
        omega
      exact ⟨⟨_, this⟩, by simp [Ops.orOverflow, SInt.of?_fits this, Res.ofOption], by simp only; omega⟩
  · rintro x rfl hx
    rw [key]
    have h1 := SInt.hi_eq w
    have h2 := SInt.lo_lt_zero w
    rw [if_neg (by omega)]
    have : ¬ w.Fits (-x.1) := by rintro ⟨_, h⟩; omega
    simp [Ops.orOverflow, SInt.of?_eq_none.mpr this, Res.ofOption]
  · intro h
    match xs, h with
    | [], _ => rfl
    | [x], h => exact absurd rfl h
    | x :: y :: zs, _ => rfl

example : ∃ c, Context.checked Demo.keys true false Demo.float (Demo.int i32 true) Config.new = .ok c ∧
    evalTokens (c.view Demo.keys) (callTokens (str "abs") [Demo.i32 (-2147483648)]) = .err .overflow ∧
    ∃ v, evalTokens (c.view Demo.keys) (callTokens (str "abs") [Demo.i32 (-5)]) = .ok v ∧ v.1 = 5 := by
  obtain ⟨c, hc⟩ := demo_checked true false
  have h := fun xs => C58_abs Demo.keys true false Demo.float _ _ Config.new c hc [] xs
  exact ⟨c, hc, (h _).2.1 _ rfl (by decide), (h _).1 _ rfl (by decide)⟩

/-! ## C59: the unchecked context over integers -/

/-- What an unchecked operation gives: the exact result if it fits, otherwise a panic in a debug build and the result modulo 2 to the number
of bits in a release build. -/
def machine (debug : Bool) (x : Int) : Res (SInt w) :=
  if h : w.Fits x then .ok ⟨x, h⟩ else if debug then .panic else .ok (SInt.wrap x)

theorem arith_machine (debug : Bool) (x : Int) : (SInt.arith debug x : Res (SInt w)) = machine debug x := by
  unfold SInt.arith machine SInt.of?
  split <;> split at * <;> simp_all
  all_goals (rename_i h; first | (injection h with h; rw [← h]) | skip)

/-- C59, what wrapping around means: the result of a release build is the only number of the type that differs from the exact result by a
multiple of 2 to the number of bits. -/
theorem C59_wrap (x : Int) (v : SInt w) : v = SInt.wrap x ↔ ∃ k : Int, v.1 = x + k * (2 ^ (w.bits + 1) : Nat) := by
  constructor
  · rintro rfl
    refine ⟨-(x.bdiv (2 ^ (w.bits + 1))), ?_⟩
    simp only [SInt.wrap]
    have := Int.bmod_add_bdiv x (2 ^ (w.bits + 1))
    have h2 : -(x.bdiv (2 ^ (w.bits + 1))) * ((2 ^ (w.bits + 1) : Nat) : Int) =
        -(((2 ^ (w.bits + 1) : Nat) : Int) * x.bdiv (2 ^ (w.bits + 1))) := by
      rw [Int.neg_mul, Int.mul_comm]
    omega
  · rintro ⟨k, hk⟩
    have h1 : v = SInt.wrap v.1 := (wrap_fits v.2).symm
    rw [h1]
    apply wrap_eq
    rw [hk]
    exact Int.add_mul_bmod_self_right ..

/-- C59. In the unchecked context over integers `+`, `-`, `*` and the sign are exact if the result fits; otherwise they panic in a debug build
and give the only congruent number that fits in a release build. `/` and `mod` give `DivisionByZero` exactly for the divisor 0, and panic for
`MIN / -1` and `MIN mod -1` in every build. -/
theorem C59_unchecked_operators (K : Keys) (debug : Bool) (f : F64 F) (toF64 : SInt w → F) (fromF64 : F → Option (SInt w))
    (config : Config) (c : Context (SInt w))
    (hc : Context.unchecked K debug f (SInt.num w debug toF64 fromF64) config = .ok c) (os : List (Op (SInt w))) (x y : SInt w) :
    let ctx := (c.runAll K debug os).view K
    evalTokens ctx (infixTokens x ['+'] y) = machine debug (x.1 + y.1) ∧
    evalTokens ctx (infixTokens x ['-'] y) = machine debug (x.1 - y.1) ∧
    evalTokens ctx (infixTokens x ['*'] y) = machine debug (x.1 * y.1) ∧
    evalTokens ctx [.unary ['-'], .number x] = machine debug (-x.1) ∧
    (y.1 = 0 → evalTokens ctx (infixTokens x ['/'] y) = .err .divisionByZero ∧
      evalTokens ctx (infixTokens x (str "mod") y) = .err .divisionByZero) ∧
    (y.1 ≠ 0 → ¬ (x.1 = w.lo ∧ y.1 = -1) →
      (∃ v, evalTokens ctx (infixTokens x ['/'] y) = .ok v ∧ v.1 = x.1.tdiv y.1) ∧
      (∃ v, evalTokens ctx (infixTokens x (str "mod") y) = .ok v ∧ v.1 = x.1.tmod y.1)) ∧
    (x.1 = w.lo ∧ y.1 = -1 → evalTokens ctx (infixTokens x ['/'] y) = .panic ∧ evalTokens ctx (infixTokens x (str "mod") y) = .panic) := by
  intro ctx
  have h := fun e => C32_unchecked K debug f _ config c hc os e
  have hd : evalTokens ctx (infixTokens x ['/'] y) = if (y.1 == 0) = true then .err .divisionByZero else SInt.division Int.tdiv x y :=
    (h (.bin .div (.num x) (.num y))).trans rfl
  have hm : evalTokens ctx (infixTokens x (str "mod") y) = if (y.1 == 0) = true then .err .divisionByZero else SInt.division Int.tmod x y :=
    (h (.bin .mod (.num x) (.num y))).trans rfl
  rw [hd, hm]
  refine ⟨?_, ?_, ?_, ?_, ?_, ?_, ?_⟩
  · exact (h (.bin .add (.num x) (.num y))).trans (arith_machine _ _)
  · exact (h (.bin .sub (.num x) (.num y))).trans (arith_machine _ _)
  · exact (h (.bin .mul (.num x) (.num y))).trans (arith_machine _ _)
  · exact (h (.neg (.num x))).trans (arith_machine _ _)
  · intro hy; simp [hy]
  · intro hy hne
    have h1 := SInt.tdiv_fits x y hne hy
    have h2 := SInt.tmod_fits x y
    refine ⟨⟨⟨_, h1⟩, ?_, rfl⟩, ⟨⟨_, h2⟩, ?_, rfl⟩⟩
    · simp [hy, SInt.division, SInt.checkedDivision, hne, SInt.of?_fits h1]
    · simp [hy, SInt.division, SInt.checkedDivision, hne, SInt.of?_fits h2]
  · rintro ⟨hx, hy⟩
    simp [hx, hy, SInt.division, SInt.checkedDivision]

example : ∃ c, Context.unchecked Demo.keys false Demo.float (Demo.int i32 false) Config.new = .ok c ∧
    evalTokens (c.view Demo.keys) (infixTokens (Demo.i32 2147483647) ['+'] (Demo.i32 1)) = .ok (Demo.i32 (-2147483648)) ∧
    evalTokens (c.view Demo.keys) (infixTokens (Demo.i32 (-2147483648)) ['/'] (Demo.i32 (-1))) = .panic := by
  obtain ⟨c, hc, -⟩ := unchecked_build Demo.keys false Demo.float (Demo.int i32 false) Config.new (Demo.i32 3) (Demo.i32 2) (by decide) (by decide)
  have h := fun x y => C59_unchecked_operators Demo.keys false Demo.float _ _ Config.new c hc [] x y
  exact ⟨c, hc, (h _ _).1.trans (by decide), ((h _ _).2.2.2.2.2.2 ⟨by decide, by decide⟩).1⟩

end Prexel
