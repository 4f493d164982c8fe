import Verif.Props.Floats
/-!
# Area functions (C89), and examples for the functions of floating point numbers
-/

set_option linter.unusedVariables false
set_option linter.unusedSimpArgs false

namespace Prexel
variable {N F : Type} {K : Keys} {debug docs : Bool} {f : F64 F}

/-- What `asinh`, `acosh`, `atanh` and the functions of the reciprocal give: the area converted to degrees as if it were an angle, snapped. -/
theorem C89_area_degrees {num : Num N F} {ctx : Ctx N} (h : BuiltIn K debug docs f num ctx) (x : N) (v : F) (hv : num.toF64 x = some v) :
    (∀ e ∈ areaTable f, FiniteOr f num (snap f (f.toDegrees (e.2 v))) (evalTokens ctx (callTokens e.1 [x]))) ∧
    (∀ e ∈ areaInvTable f, FiniteOr f num (snap f (f.toDegrees (e.2 (f.inv v)))) (evalTokens ctx (callTokens e.1 [x]))) := by
  constructor
  · intro e he
    simp only [areaTable, List.mem_cons, List.not_mem_nil, or_false] at he
    rcases he with rfl | rfl | rfl <;>
    · show FiniteOr f num _ (evalTokens ctx (callTokens _ [x]))
      rw [builtIn_call h (by rfl) (by cases docs <;> rfl)]
      exact finiteOr_of (viaFloat_call f num _ _ x v hv)
  · intro e he
    simp only [areaInvTable, List.mem_cons, List.not_mem_nil, or_false] at he
    rcases he with rfl | rfl | rfl <;>
    · show FiniteOr f num _ (evalTokens ctx (callTokens _ [x]))
      rw [builtIn_call h (by rfl) (by cases docs <;> rfl)]
      exact finiteOr_of (viaFloat_call f num _ _ x v hv)

/-- What is needed of `f64::to_degrees`, `f64::asinh` and `f64::sinh`: very weak bounds. -/
structure F64.Hyperbolic (W : f.Whole) : Prop where
  degrees : ∀ x, f.Finite x → 0 ≤ W.val x → W.val x ≤ 1000 → f.Finite (f.toDegrees x) ∧ 50 * W.val x ≤ W.val (f.toDegrees x)
  asinh : ∀ x, f.Finite x → 1 ≤ W.val x → f.Finite (f.asinh x) ∧ 1 / 2 ≤ W.val (f.asinh x) ∧ W.val (f.asinh x) ≤ W.val x
  sinh : ∀ x, f.Finite x → f.Finite (f.sinh x) → 0 ≤ W.val x → W.val x ≤ W.val (f.sinh x)

/-- C89 is false of the code: for numbers from 1 to 20, `sinh(asinh(x))` is not even close to `x`; it is more than 22 (or not finite). -/
theorem C89_inverse_counterexample {g : FloatNum F} {ctx : Ctx F} (W : f.Whole) (H : F64.Hyperbolic W) (h : BuiltIn K debug docs f (f.num g) ctx)
    (x : F) (hx : f.Finite x) (h1 : 1 ≤ W.val x) (h20 : W.val x ≤ 20) :
    ∃ a s, evalTokens ctx (callTokens (str "asinh") [x]) = .ok a ∧ evalTokens ctx (callTokens (str "sinh") [a]) = .ok s ∧
      (f.Finite s → 22 ≤ W.val s) := by
  obtain ⟨ha, ha1, ha2⟩ := H.asinh x hx h1
  obtain ⟨hd, hd1⟩ := H.degrees _ ha (by grind) (by grind)
  obtain ⟨hs, n, hn1, hn2, hn3, hn4⟩ := snap_cases W _ hd
  have hsv : 24 ≤ W.val (snap f (f.toDegrees (f.asinh x))) := by
    rcases hn4 with ⟨h5, -⟩ | ⟨h5, -⟩
    · rw [h5, hn1]; grind
    · rw [h5]; grind
  refine ⟨_, _, ((C89_area_degrees h x x rfl).1 _ (List.mem_cons_self)).1 hs, ((C82_one_argument h _ _ rfl).1 (str "sinh", f.sinh)
    (by simp [plainTable])).1 hs, fun hfin => ?_⟩
  obtain ⟨hs', m, hm1, hm2, hm3, hm4⟩ := snap_cases W _ hs
  have := H.sinh _ hs' hfin
  rcases hm4 with ⟨h5, -⟩ | ⟨h5, -⟩
  · rw [h5, hm1] at this; rw [h5]; grind
  · rw [h5] at this; rw [h5]; grind

/-! ## Examples -/

instance (x : F) : Decidable (f.Finite x) := inferInstanceAs (Decidable (_ ∧ _))

namespace Demo

theorem flt_finite (x : Flt) : flt.Finite x ↔ ∃ q, x = some q := by
  cases x <;> simp [F64.Finite, flt]

/-- The value of the toy float. -/
def fltVal (x : Flt) : Rat := x.getD 0

theorem flt_lt (x y : Flt) (hx : flt.Finite x) (hy : flt.Finite y) : flt.lt x y = true ↔ fltVal x < fltVal y := by
  obtain ⟨a, rfl⟩ := (flt_finite _).mp hx
  obtain ⟨b, rfl⟩ := (flt_finite _).mp hy
  simp [flt, fltVal]

def fltWhole : flt.Whole where
  val := fltVal
  lt := flt_lt
  round x hx := by
    obtain ⟨q, rfl⟩ := (flt_finite _).mp hx
    refine ⟨(flt_finite _).mpr ⟨_, rfl⟩, (q + 1 / 2).floor, rfl, ?_, ?_⟩
    · have := Rat.floor_le (q + 1 / 2)
      show _ ≤ q - _
      grind
    · have := Rat.lt_floor_add_one (q + 1 / 2)
      show q - _ ≤ _
      grind
  distance x hx := by
    obtain ⟨q, rfl⟩ := (flt_finite _).mp hx
    refine ⟨(flt_finite _).mpr ⟨_, rfl⟩, ?_⟩
    show (if q - ((q + 1 / 2).floor : Rat) < 0 then -(q - ((q + 1 / 2).floor : Rat)) else q - ((q + 1 / 2).floor : Rat)) =
      if q < ((q + 1 / 2).floor : Rat) then ((q + 1 / 2).floor : Rat) - q else q - ((q + 1 / 2).floor : Rat)
    split <;> split <;> grind
  floor x hx := by
    obtain ⟨q, rfl⟩ := (flt_finite _).mp hx
    exact ⟨(flt_finite _).mpr ⟨_, rfl⟩, q.floor, rfl, Rat.floor_le q, by have := Rat.lt_floor_add_one q; show q < _; grind⟩
  ceil x hx := by
    obtain ⟨q, rfl⟩ := (flt_finite _).mp hx
    refine ⟨(flt_finite _).mpr ⟨_, rfl⟩, q.ceil, rfl, ?_, ?_⟩
    · show _ < q
      have := Rat.ceil_lt (x := q)
      grind
    · exact Rat.le_ceil
  error := ⟨(flt_finite _).mpr ⟨_, rfl⟩, by decide +kernel, by decide +kernel⟩

theorem fltHyperbolic : F64.Hyperbolic fltWhole where
  degrees x hx h0 h1 := by
    obtain ⟨q, rfl⟩ := (flt_finite _).mp hx
    refine ⟨(flt_finite _).mpr ⟨_, rfl⟩, ?_⟩
    have h0 : 0 ≤ q := h0
    show 50 * q ≤ q * 60
    grind
  asinh x hx h1 := by
    obtain ⟨q, rfl⟩ := (flt_finite _).mp hx
    have h1 : 1 ≤ q := h1
    exact ⟨(flt_finite _).mpr ⟨_, rfl⟩, by show _ ≤ q / 2; grind, by show q / 2 ≤ q; grind⟩
  sinh x hx _ h0 := by
    obtain ⟨q, rfl⟩ := (flt_finite _).mp hx
    have h0 : 0 ≤ q := h0
    show q ≤ 2 * q
    grind

def fltRounds : flt.Rounds where
  val := fltVal
  rnd := id
  mono a b h := h
  keep x _ := rfl
  zero := rfl
  lt := flt_lt
  sign x hx := by
    obtain ⟨q, rfl⟩ := (flt_finite _).mp hx
    constructor
    · intro h; have h : q < 0 := h; simp [flt, h]
    · intro h; have h : 0 < q := h; simp [flt]; grind
  mul x y z hx hy _ _ _ := by
    obtain ⟨a, rfl⟩ := (flt_finite _).mp hx
    obtain ⟨b, rfl⟩ := (flt_finite _).mp hy
    exact ⟨(flt_finite _).mpr ⟨_, rfl⟩, rfl⟩
  add x y _ _ hx hy _ _ _ _ := by
    obtain ⟨a, rfl⟩ := (flt_finite _).mp hx
    obtain ⟨b, rfl⟩ := (flt_finite _).mp hy
    exact ⟨(flt_finite _).mpr ⟨_, rfl⟩, rfl⟩
  draw := ⟨(flt_finite _).mpr ⟨_, rfl⟩, by decide +kernel, by decide +kernel⟩

/-- A context over the toy float. -/
theorem flt_context : ∃ c, Context.checked keys true true flt (flt.num fltNum) Config.new = .ok c := by
  obtain ⟨c, hc, -⟩ := C31_checked keys true true flt (flt.num fltNum) Config.new (some 3) (some 2) rfl rfl
  exact ⟨c, hc⟩

end Demo

/-- C82: `sqrt(4)` is what the library gives, `sqrt(NaN)` is refused, `csc(0)` is refused because 1/0 is not finite. -/
example {c : Context Demo.Flt} (hc : Context.checked Demo.keys true true Demo.flt (Demo.flt.num Demo.fltNum) Config.new = .ok c) :
    evalTokens (c.view Demo.keys) (callTokens (str "sqrt") [some 4]) = .ok (Demo.flt.sqrt (some 4)) ∧
    evalTokens (c.view Demo.keys) (callTokens (str "sqrt") [none]) = .err .nan ∧
    evalTokens (c.view Demo.keys) (callTokens (str "csc") [some 0]) = .err .nan := by
  have hb : BuiltIn Demo.keys true true Demo.flt (Demo.flt.num Demo.fltNum) (c.view Demo.keys) := ⟨_, c, [], .inl hc, rfl⟩
  refine ⟨?_, ?_, ?_⟩
  · refine (((C82_one_argument hb (some 4) (some 4) rfl).1 (str "sqrt", Demo.flt.sqrt) (by simp [plainTable])).1 (by decide)).trans ?_
    decide +kernel
  · exact ((C82_one_argument hb none none rfl).1 (str "sqrt", Demo.flt.sqrt) (by simp [plainTable])).2 (by decide)
  · exact ((C82_one_argument hb (some 0) (some 0) rfl).2.2.1 (str "csc", Demo.flt.sin) (by simp [angleInvTable])).2 (by decide +kernel)

/-- C83: `floor` of a number less than 1e-10 below 5 is 5. -/
example {c : Context Demo.Flt} (hc : Context.checked Demo.keys true true Demo.flt (Demo.flt.num Demo.fltNum) Config.new = .ok c) :
    ∃ r, evalTokens (c.view Demo.keys) (callTokens (str "floor") [some (5 - 1 / 10 ^ 11)]) = .ok r ∧ Demo.fltVal r = 5 := by
  obtain ⟨r, h1, h2, -⟩ := (C83_floor_counterexample Demo.fltWhole hc [] (some (5 - 1 / 10 ^ 11)) (by decide) 5).1 (by decide +kernel)
    (by decide +kernel)
  exact ⟨r, h1, h2⟩

/-- C84: `sin(30)` is 1/2 in the toy float, so `csc(30)` is 2. -/
example {c : Context Demo.Flt} (hc : Context.checked Demo.keys true true Demo.flt (Demo.flt.num Demo.fltNum) Config.new = .ok c) :
    evalTokens (c.view Demo.keys) (callTokens (str "csc") [some 30]) = .ok (some 2) := by
  have hb : BuiltIn Demo.keys true true Demo.flt (Demo.flt.num Demo.fltNum) (c.view Demo.keys) := ⟨_, c, [], .inl hc, rfl⟩
  have hs : evalTokens (c.view Demo.keys) (callTokens (str "sin") [some 30]) = .ok (some (1 / 2)) := by
    rw [builtIn_call hb (by rfl) (by rfl)]; decide +kernel
  refine ((((C84_reciprocal hb (some 30) (some (1 / 2))).1 ("sin", "csc") (by simp)) hs).1 (by decide +kernel)).trans ?_
  decide +kernel

/-- C85: the square root of -4 is NaN and no error. -/
example {c : Context Demo.Flt} (hc : Context.checked Demo.keys true true Demo.flt (Demo.flt.num Demo.fltNum) Config.new = .ok c) :
    ∃ r, evalTokens (c.view Demo.keys) (callTokens (str "sqrt") [some (-4)]) = .ok r ∧ ¬ Demo.flt.Finite r :=
  (C85_counterexample (g := Demo.fltNum) ⟨_, c, [], .inl hc, rfl⟩ (some (-4)) (by decide)).1 (str "sqrt", Demo.flt.sqrt) (by simp [plainTable]) (by decide +kernel)

/-- C87: `random(2, 5)` is between 2 and 5, `random(5, 2)` is refused. -/
example {c : Context Demo.Flt} (hc : Context.checked Demo.keys true true Demo.flt (Demo.flt.num Demo.fltNum) Config.new = .ok c) :
    (∃ r, evalTokens (c.view Demo.keys) (callTokens (str "random") [some 2, some 5]) = .ok r ∧ 2 ≤ Demo.fltVal r ∧ Demo.fltVal r ≤ 5) ∧
    evalTokens (c.view Demo.keys) (callTokens (str "random") [some 5, some 2]) = .err .invalidInput := by
  have h := C87_random Demo.fltRounds (g := Demo.fltNum) (ctx := c.view Demo.keys) ⟨_, c, [], .inl hc, rfl⟩
  exact ⟨h.2.2.2.2 (some 2) (some 5) (by decide) (by decide) (by decide +kernel) (by decide) (by decide +kernel),
    h.2.2.2.1 (some 5) (some 2) (by decide) (by decide) (by decide +kernel)⟩

/-- C89: `asinh(1)` is 30 in the toy float, where the area is 1/2. -/
example {c : Context Demo.Flt} (hc : Context.checked Demo.keys true true Demo.flt (Demo.flt.num Demo.fltNum) Config.new = .ok c) :
    evalTokens (c.view Demo.keys) (callTokens (str "asinh") [some 1]) = .ok (some 30) ∧
    ∃ a s, evalTokens (c.view Demo.keys) (callTokens (str "asinh") [some 1]) = .ok a ∧
      evalTokens (c.view Demo.keys) (callTokens (str "sinh") [a]) = .ok s ∧ (Demo.flt.Finite s → 22 ≤ Demo.fltVal s) := by
  have hb : BuiltIn Demo.keys true true Demo.flt (Demo.flt.num Demo.fltNum) (c.view Demo.keys) := ⟨_, c, [], .inl hc, rfl⟩
  exact ⟨by rw [builtIn_call hb (by rfl) (by rfl)]; decide +kernel,
    C89_inverse_counterexample Demo.fltWhole Demo.fltHyperbolic hb (some 1) (by decide) (by decide +kernel) (by decide +kernel)⟩

end Prexel
