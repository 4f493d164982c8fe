import Verif.Props.Functions
import Verif.Spec.Floats
import Verif.Examples.Floats
/-!
# Functions computed with floating point numbers (C82 to C89)
-/

set_option linter.unusedVariables false
set_option linter.unusedSimpArgs false

namespace Prexel
variable {N F : Type}

/-- The checked or the unchecked context with anything registered on top of it. -/
def BuiltIn (K : Keys) (debug docs : Bool) (f : F64 F) (num : Num N F) (ctx : Ctx N) : Prop :=
  ∃ (config : Config) (c : Context N) (os : List (Op N)),
    (Context.checked K debug docs f num config = .ok c ∨ Context.unchecked K debug f num config = .ok c) ∧
    ctx = (c.runAll K debug os).view K

theorem snap_approx (f : F64 F) (x : F) : f.approx x = snap f x := rfl

theorem finite_iff (f : F64 F) (x : F) : f.Finite x ↔ f.notFinite x = false := by
  simp [F64.Finite, F64.notFinite]

theorem notFinite_of (f : F64 F) (x : F) (h : ¬ f.Finite x) : f.notFinite x = true := by
  rw [finite_iff] at h; simpa using h

theorem finiteOr_finite (f : F64 F) (num : Num N F) (r : F) : FiniteOr f num r (Ops.finite f num (some r)) := by
  constructor
  · intro h; rw [finite_iff] at h; simp [Ops.finite, h, Ops.fromFloat, fromFloatOr, Ops.orOverflow]
  · intro h; simp [Ops.finite, notFinite_of f r h]

theorem finiteOr_of {f : F64 F} {num : Num N F} {r : F} {res : Res N} (h : res = Ops.finite f num (some r)) : FiniteOr f num r res :=
  h ▸ finiteOr_finite f num r

section
variable {K : Keys} {debug docs : Bool} {f : F64 F} {num : Num N F} {ctx : Ctx N}

/-- A function that both contexts have. -/
theorem builtIn_call (h : BuiltIn K debug docs f num ctx) {name : Str} {g : Fn N}
    (h2 : lookup hashSame (Ops.uncheckedFunctions f num) name = some g)
    (h1 : lookup hashSame (Ops.checkedFunctions docs f num) name = some g) (xs : List N) : evalTokens ctx (callTokens name xs) = g xs := by
  obtain ⟨config, c, os, hc | hc, rfl⟩ := h
  · exact checked_call hc os h1 xs
  · exact unchecked_call hc os h2 xs

theorem forward_call (f : F64 F) (num : Num N F) (name : Str) (g : F → F) (x : N) (v : F) (hv : num.toF64 x = some v) :
    (f.Finite v → (Ops.forward f num name g).fn [x] = fromFloatOr num (g (snap f v))) ∧
    (¬ f.Finite v → (Ops.forward f num name g).fn [x] = .err .nan) := by
  constructor
  · intro h
    rw [finite_iff] at h
    simp [Ops.forward, Ops.tryToFloat, hv, h, snap_approx, fromFloatOr, Ops.fromFloat, Ops.orOverflow]
  · intro h
    simp [Ops.forward, Ops.tryToFloat, hv, notFinite_of f v h]

theorem viaFloat_call (f : F64 F) (num : Num N F) (name : Str) (g : F → F) (x : N) (v : F) (hv : num.toF64 x = some v) :
    (Ops.viaFloat f num name g).fn [x] = Ops.finite f num (some (g v)) := by
  simp [Ops.viaFloat, hv]

/-- C82, one argument. -/
theorem C82_one_argument (h : BuiltIn K debug docs f num ctx) : OneArgument ctx f num := by
  intro x v hv call
  refine ⟨?_, ?_, ?_, ?_, ?_, ?_, ?_⟩
  · intro e he
    simp only [plainTable, List.mem_cons, List.not_mem_nil, or_false] at he
    rcases he with rfl | rfl | rfl | rfl | rfl | rfl | rfl | rfl | rfl | rfl | rfl <;>
    · show (_ → evalTokens ctx (callTokens _ [x]) = _) ∧ (_ → evalTokens ctx (callTokens _ [x]) = _)
      rw [builtIn_call h (by rfl) (by cases docs <;> rfl)]
      exact forward_call f num _ _ x v hv
  · intro e he
    simp only [angleTable, List.mem_cons, List.not_mem_nil, or_false] at he
    rcases he with rfl | rfl | rfl <;>
    · show FiniteOr f num _ (evalTokens ctx (callTokens _ [x]))
      rw [builtIn_call h (by rfl) (by cases docs <;> rfl)]
      exact finiteOr_of (viaFloat_call f num _ _ x v hv)
  · intro e he
    simp only [angleInvTable, List.mem_cons, List.not_mem_nil, or_false] at he
    rcases he with rfl | rfl | rfl <;>
    · show FiniteOr f num _ (evalTokens ctx (callTokens _ [x]))
      rw [builtIn_call h (by rfl) (by cases docs <;> rfl)]
      exact finiteOr_of (viaFloat_call f num _ _ x v hv)
  · intro e he
    simp only [arcTable, List.mem_cons, List.not_mem_nil, or_false] at he
    rcases he with rfl | rfl <;>
    · show FiniteOr f num _ (evalTokens ctx (callTokens _ [x]))
      rw [builtIn_call h (by rfl) (by cases docs <;> rfl)]
      exact finiteOr_of (viaFloat_call f num _ _ x v hv)
  · intro e he
    simp only [arcInvTable, List.mem_cons, List.not_mem_nil, or_false] at he
    rcases he with rfl | rfl | rfl <;>
    · show FiniteOr f num _ (evalTokens ctx (callTokens _ [x]))
      rw [builtIn_call h (by rfl) (by cases docs <;> rfl)]
      exact finiteOr_of (viaFloat_call f num _ _ x v hv)
  · show FiniteOr f num _ (evalTokens ctx (callTokens _ [x]))
    rw [builtIn_call h (by rfl) (by cases docs <;> rfl)]
    have : (Ops.atan f num).fn [x] = Ops.finite f num (some (f.toDegrees (f.atan v))) := by simp [Ops.atan, hv]
    exact finiteOr_of this
  · show FiniteOr f num _ (evalTokens ctx (callTokens _ [x]))
    rw [builtIn_call h (by rfl) (by cases docs <;> rfl)]
    have : (Ops.log f num).fn [x] = Ops.finite f num (some (f.log10 v)) := by simp [Ops.log, hv]
    exact finiteOr_of this

/-- C82, two arguments. -/
theorem C82_two_arguments (h : BuiltIn K debug docs f num ctx) : TwoArguments ctx f num := by
  intro x y v u hv hu call
  refine ⟨?_, ?_, ?_, ?_⟩
  · show FiniteOr f num _ (evalTokens ctx (callTokens _ [x, y]))
    rw [builtIn_call h (by rfl) (by cases docs <;> rfl)]
    have : (Ops.log f num).fn [x, y] = Ops.finite f num (some (f.log v u)) := by simp [Ops.log, hv, hu]
    exact finiteOr_of this
  · intro ⟨h1, h2⟩
    show evalTokens ctx (callTokens _ [x, y]) = _
    rw [builtIn_call h (by rfl) (by cases docs <;> rfl)]
    simp [Ops.atan, hv, hu, h1, h2]
  · intro h1
    show FiniteOr f num _ (evalTokens ctx (callTokens _ [x, y]))
    rw [builtIn_call h (by rfl) (by cases docs <;> rfl)]
    have : (Ops.atan f num).fn [x, y] = Ops.finite f num (some (f.toDegrees (f.atan2 v u))) := by
      rcases h1 with h1 | h1 <;> simp [Ops.atan, hv, hu, h1]
    exact finiteOr_of this
  · have hb : ctx.getBinary (str "^") = some (Ops.pow f num).fn := by
      obtain ⟨config, c, os, hc | hc, rfl⟩ := h
      · obtain ⟨pi, e, hv⟩ := checked_inv hc
        exact (C26_never_replaced K debug c os _).2.2 _ (by rw [hv]; rfl)
      · obtain ⟨pi, e, hv⟩ := unchecked_inv hc
        exact (C26_never_replaced K debug c os _).2.2 _ (by rw [hv]; rfl)
    rw [eval_infix ctx hb]
    simp [Ops.pow, hv, hu, fromFloatOr, Ops.fromFloat, Ops.orOverflow]

end

/-! ## C83: rounding functions -/

section
variable {K : Keys} {debug docs : Bool} {f : F64 F} {g : FloatNum F} {config : Config} {c : Context F}

/-- The floats: every floating point number is a number and the other way round. -/
theorem float_call (hc : Context.checked K debug docs f (f.num g) config = .ok c) (os : List (Op F)) {name : Str} {h : F → F}
    (hl : lookup hashSame (Ops.checkedFunctions docs f (f.num g)) name = some (Ops.forward f (f.num g) name h).fn) (x : F) (hx : f.Finite x) :
    evalTokens ((c.runAll K debug os).view K) (callTokens name [x]) = .ok (h (snap f x)) := by
  rw [checked_call hc os hl]
  exact (forward_call f (f.num g) name h x x rfl).1 hx

theorem snap_cases (W : f.Whole) (x : F) (hx : f.Finite x) : f.Finite (snap f x) ∧ ∃ n : Int, W.val (f.round x) = n ∧
    -(1 / 2) ≤ W.val x - n ∧ W.val x - n ≤ 1 / 2 ∧
    ((snap f x = f.round x ∧ -(W.val f.error) < W.val x - n ∧ W.val x - n < W.val f.error) ∨
     (snap f x = x ∧ (W.val x - n ≤ -(W.val f.error) ∨ W.val f.error ≤ W.val x - n))) := by
  obtain ⟨h1, n, h2, h3, h4⟩ := W.round x hx
  obtain ⟨h5, h6⟩ := W.distance x hx
  have h7 := W.lt _ _ h5 W.error.1
  by_cases hs : f.lt (f.abs (f.sub x (f.round x))) f.error = true
  · have he : snap f x = f.round x := by simp [snap, hs]
    refine ⟨by rw [he]; exact h1, n, h2, h3, h4, .inl ⟨he, ?_⟩⟩
    have := h7.mp hs
    rw [h6, h2] at this
    constructor <;> (split at this <;> grind)
  · have he : snap f x = x := by simp [snap, hs]
    refine ⟨by rw [he]; exact hx, n, h2, h3, h4, .inr ⟨he, ?_⟩⟩
    have : ¬ _ := fun h => hs (h7.mpr h)
    rw [h6, h2] at this
    split at this <;> grind

/-- Away from whole numbers, or whole. -/
def Clear (W : f.Whole) (x : F) : Prop :=
  (∃ n : Int, W.val x = n) ∨ ∀ n : Int, W.val x - n ≤ -(W.val f.error) ∨ W.val f.error ≤ W.val x - n

theorem snap_clear (W : f.Whole) (x : F) (hx : f.Finite x) (h : Clear W x) : W.val (snap f x) = W.val x := by
  obtain ⟨h1, n, h2, h3, h4, ⟨h5, h6, h7⟩ | ⟨h5, h6⟩⟩ := snap_cases W x hx
  · rw [h5, h2]
    rcases h with ⟨m, hm⟩ | h
    · rw [hm] at h3 h4 ⊢
      have : m = n := by
        have h8 : ((m - n : Int) : Rat) ≤ 1 / 2 := by grind
        have h9 : -(1 / 2) ≤ ((m - n : Int) : Rat) := by grind
        have h10 : ((m - n : Int) : Rat) < ((1 : Int) : Rat) := by grind
        have h11 : ((-1 : Int) : Rat) < ((m - n : Int) : Rat) := by grind
        rw [Rat.intCast_lt_intCast] at h10 h11
        omega
      rw [this]
    · rcases h n with h | h <;> grind
  · rw [h5]

/-- C83, the part that holds: `round(x)` is a nearest whole number; `floor(x)` and `ceil(x)` are the next whole numbers below and above unless
`x` is closer to a whole number than 1e-10 (but not whole). -/
theorem C83_rounding_partial (W : f.Whole) (hc : Context.checked K debug docs f (f.num g) config = .ok c) (os : List (Op F)) (x : F)
    (hx : f.Finite x) :
    let call := fun name => evalTokens ((c.runAll K debug os).view K) (callTokens name [x])
    (∃ r, ∃ n : Int, call (str "round") = .ok r ∧ W.val r = n ∧ -(1 / 2) ≤ W.val x - n ∧ W.val x - n ≤ 1 / 2) ∧
    (Clear W x → ∃ r, ∃ n : Int, call (str "floor") = .ok r ∧ W.val r = n ∧ n ≤ W.val x ∧ W.val x < n + 1) ∧
    (Clear W x → ∃ r, ∃ n : Int, call (str "ceil") = .ok r ∧ W.val r = n ∧ n - 1 < W.val x ∧ W.val x ≤ n) := by
  intro call
  obtain ⟨hs, n, hn1, hn2, hn3, hn4⟩ := snap_cases W x hx
  refine ⟨?_, fun h => ?_, fun h => ?_⟩
  · refine ⟨_, n, float_call (h := f.round) hc os (by cases docs <;> rfl) x hx, ?_, hn2, hn3⟩
    rcases hn4 with ⟨h5, h6, h7⟩ | ⟨h5, h6⟩
    · obtain ⟨h8, m, h9, h10, h11⟩ := W.round (snap f x) hs
      rw [h9]
      rw [h5, hn1] at h10 h11
      have h12 : ((n - m : Int) : Rat) < ((1 : Int) : Rat) := by grind
      have h13 : ((-1 : Int) : Rat) < ((n - m : Int) : Rat) := by grind
      rw [Rat.intCast_lt_intCast] at h12 h13
      have : m = n := by omega
      rw [this]
    · rw [h5, hn1]
  · obtain ⟨h1, m, h2, h3, h4⟩ := W.floor (snap f x) hs
    rw [snap_clear W x hx h] at h3 h4
    exact ⟨_, m, float_call hc os (by cases docs <;> rfl) x hx, h2, h3, h4⟩
  · obtain ⟨h1, m, h2, h3, h4⟩ := W.ceil (snap f x) hs
    rw [snap_clear W x hx h] at h3 h4
    exact ⟨_, m, float_call hc os (by cases docs <;> rfl) x hx, h2, h3, h4⟩

theorem whole_near (W : f.Whole) (x : F) (n : Int) (hx : f.Finite x) (h1 : -(W.val f.error) < W.val x - n) (h2 : W.val x - n < W.val f.error) :
    W.val (snap f x) = n := by
  obtain ⟨hs, m, hm1, hm2, hm3, hm4⟩ := snap_cases W x hx
  have he := W.error.2.2
  have h12 : ((n - m : Int) : Rat) < ((1 : Int) : Rat) := by grind
  have h13 : ((-1 : Int) : Rat) < ((n - m : Int) : Rat) := by grind
  rw [Rat.intCast_lt_intCast] at h12 h13
  have : m = n := by omega
  subst this
  rcases hm4 with ⟨h5, -⟩ | ⟨h5, h6 | h6⟩
  · rw [h5, hm1]
  · grind
  · grind

/-- C83 is false of the code: for every number less than 1e-10 below a whole number, `floor` returns that whole number, which is more than the
argument; for every number less than 1e-10 above a whole number, `ceil` returns that whole number, which is less than the argument. -/
theorem C83_floor_counterexample (W : f.Whole) (hc : Context.checked K debug docs f (f.num g) config = .ok c) (os : List (Op F)) (x : F)
    (hx : f.Finite x) (n : Int) :
    let call := fun name => evalTokens ((c.runAll K debug os).view K) (callTokens name [x])
    (n - W.val f.error < W.val x → W.val x < n → ∃ r, call (str "floor") = .ok r ∧ W.val r = n ∧ W.val x < W.val r) ∧
    ((n : Rat) < W.val x → W.val x < n + W.val f.error → ∃ r, call (str "ceil") = .ok r ∧ W.val r = n ∧ W.val r < W.val x) := by
  intro call
  obtain ⟨hs, -⟩ := snap_cases W x hx
  have he := W.error.2
  constructor
  · intro h1 h2
    have h3 := whole_near W x n hx (by grind) (by grind)
    obtain ⟨h4, m, h5, h6, h7⟩ := W.floor (snap f x) hs
    rw [h3] at h6 h7
    have h8 : (m : Rat) ≤ n := h6
    have h9 : (n : Rat) < ((m + 1 : Int) : Rat) := by grind
    rw [Rat.intCast_lt_intCast] at h9
    rw [Rat.intCast_le_intCast] at h8
    have : m = n := by omega
    rw [this] at h5
    exact ⟨_, float_call hc os (by cases docs <;> rfl) x hx, h5, by rw [h5]; exact h2⟩
  · intro h1 h2
    have h3 := whole_near W x n hx (by grind) (by grind)
    obtain ⟨h4, m, h5, h6, h7⟩ := W.ceil (snap f x) hs
    rw [h3] at h6 h7
    have h8 : (n : Rat) ≤ m := h7
    have h9 : ((m - 1 : Int) : Rat) < (n : Rat) := by grind
    rw [Rat.intCast_lt_intCast] at h9
    rw [Rat.intCast_le_intCast] at h8
    have : m = n := by omega
    rw [this] at h5
    exact ⟨_, float_call hc os (by cases docs <;> rfl) x hx, h5, by rw [h5]; exact h1⟩

end

/-! ## C84: reciprocal functions of floats -/

section
variable {K : Keys} {debug docs : Bool} {f : F64 F} {g : FloatNum F} {ctx : Ctx F}

/-- C84. If `sin(x)` is `s`, then `csc(x)` is `1/s` if that is finite and otherwise the error `NAN`; the same for `cos` and `sec`, and for `tan`
and `cot`. If `sinh(x)` is `s`, then `csch(x)` is `1/s`; the same for `cosh` and `sech`, and for `tanh` and `coth`. -/
theorem C84_reciprocal (h : BuiltIn K debug docs f (f.num g) ctx) (x s : F) :
    let call := fun name => evalTokens ctx (callTokens name [x])
    (∀ e ∈ [("sin", "csc"), ("cos", "sec"), ("tan", "cot")], call (str e.1) = .ok s →
      (f.Finite (f.inv s) → call (str e.2) = .ok (f.inv s)) ∧ (¬ f.Finite (f.inv s) → call (str e.2) = .err .nan)) ∧
    (∀ e ∈ [("sinh", "csch"), ("cosh", "sech"), ("tanh", "coth")], call (str e.1) = .ok s → call (str e.2) = .ok (f.inv s)) := by
  intro call
  obtain ⟨h1, h2, h3, -⟩ := C82_one_argument h x x rfl
  constructor
  · intro e he hs
    have key : ∀ (a b : Str) (m : F → F), (a, m) ∈ angleTable f → (b, m) ∈ angleInvTable f → call a = .ok s →
        (f.Finite (f.inv s) → call b = .ok (f.inv s)) ∧ (¬ f.Finite (f.inv s) → call b = .err .nan) := by
      intro a b m ha hb hs
      have h4 := h2 _ ha
      have h5 := h3 _ hb
      simp only [FiniteOr] at h4 h5
      have h6 : snap f (m (f.toRadians x)) = s := by
        by_cases hf : f.Finite (snap f (m (f.toRadians x)))
        · have := (h4.1 hf).symm.trans hs
          injection this
        · have := (h4.2 hf).symm.trans hs
          cases this
      rw [h6] at h5
      exact h5
    simp only [List.mem_cons, List.not_mem_nil, or_false] at he
    rcases he with rfl | rfl | rfl
    · exact key _ _ f.sin (by simp [angleTable]) (by simp [angleInvTable]) hs
    · exact key _ _ f.cos (by simp [angleTable]) (by simp [angleInvTable]) hs
    · exact key _ _ f.tan (by simp [angleTable]) (by simp [angleInvTable]) hs
  · intro e he hs
    have key : ∀ (a b : Str) (m : F → F), (a, m) ∈ plainTable f → (b, fun x => f.inv (m x)) ∈ plainTable f → call a = .ok s →
        call b = .ok (f.inv s) := by
      intro a b m ha hb hs
      have h4 := h1 _ ha
      have h5 := h1 _ hb
      by_cases hf : f.Finite x
      · have h6 : m (snap f x) = s := by have := (h4.1 hf).symm.trans hs; injection this
        have := h5.1 hf
        rw [← h6]; exact this
      · have := (h4.2 hf).symm.trans hs
        cases this
    simp only [List.mem_cons, List.not_mem_nil, or_false] at he
    rcases he with rfl | rfl | rfl
    · exact key _ _ f.sinh (by simp [plainTable]) (by simp [plainTable]) hs
    · exact key _ _ f.cosh (by simp [plainTable]) (by simp [plainTable]) hs
    · exact key _ _ f.tanh (by simp [plainTable]) (by simp [plainTable]) hs

/-! ## C85: NaN and infinity -/

/-- The functions which check their result. -/
def guardedNames : List String :=
  ["sin", "cos", "tan", "csc", "sec", "cot", "asin", "acos", "atan", "acsc", "asec", "acot", "asinh", "acosh", "atanh", "acsch", "asech",
   "acoth", "log"]

theorem finite_ok {f : F64 F} {g : FloatNum F} {o : Option F} {r : F} (h : Ops.finite f (f.num g) o = .ok r) : f.Finite r := by
  cases o with
  | none => simp [Ops.finite] at h
  | some v =>
    have h : (if f.notFinite v = true then (.err .nan : Res F) else .ok v) = .ok r := h
    by_cases hv : f.notFinite v = true
    · rw [if_pos hv] at h; cases h
    · rw [if_neg hv] at h
      injection h with h
      rw [← h, finite_iff]; simpa using hv

theorem viaFloat_ok {f : F64 F} {g : FloatNum F} {name : Str} {m : F → F} {xs : List F} {r : F}
    (h : (Ops.viaFloat f (f.num g) name m).fn xs = .ok r) : f.Finite r := by
  match xs, h with
  | [x], h => exact finite_ok (g := g) (o := some _) h
  | [], h => cases h
  | _ :: _ :: _, h => cases h

/-- C85, the part that holds: the trigonometric functions, their inverses, the area functions and the logarithm never return NaN or infinity,
whatever their arguments. -/
theorem C85_finite_partial (h : BuiltIn K debug docs f (f.num g) ctx) (name : String) (hn : name ∈ guardedNames) (xs : List F) (r : F)
    (hr : evalTokens ctx (callTokens (str name) xs) = .ok r) : f.Finite r := by
  simp only [guardedNames, List.mem_cons, List.not_mem_nil, or_false] at hn
  rcases hn with rfl | rfl | rfl | rfl | rfl | rfl | rfl | rfl | rfl | rfl | rfl | rfl | rfl | rfl | rfl | rfl | rfl | rfl | rfl <;>
    rw [builtIn_call h (by rfl) (by cases docs <;> rfl)] at hr
  case inr.inr.inr.inr.inr.inr.inr.inr.inl =>
    match xs, hr with
    | [], hr => cases hr
    | [x], hr => exact finite_ok (g := g) (o := some _) hr
    | [y, x], hr =>
      have : (if (f.isZero y && f.isZero x) = true then (.err .nan : Res F)
        else Ops.finite f (f.num g) (some (f.toDegrees (f.atan2 y x)))) = .ok r := hr
      split at this
      · cases this
      · exact finite_ok this
    | _ :: _ :: _ :: _, hr => cases hr
  case inr.inr.inr.inr.inr.inr.inr.inr.inr.inr.inr.inr.inr.inr.inr.inr.inr.inr =>
    match xs, hr with
    | [], hr => cases hr
    | [x], hr => exact finite_ok (g := g) (o := some _) hr
    | [y, x], hr => exact finite_ok (g := g) (o := some _) hr
    | _ :: _ :: _ :: _, hr => cases hr
  all_goals exact viaFloat_ok hr

/-- C85 is false of the code: a function that does not check its result returns whatever the library gives, so the square root of a negative
number is NaN instead of an error; and a sum that leaves the range is infinite. -/
theorem C85_counterexample (h : BuiltIn K debug docs f (f.num g) ctx) (x : F) (hx : f.Finite x) :
    (∀ e ∈ plainTable f, ¬ f.Finite (e.2 (snap f x)) → ∃ r, evalTokens ctx (callTokens e.1 [x]) = .ok r ∧ ¬ f.Finite r) ∧
    (∀ y, ¬ f.Finite (f.add x y) → ∃ r, evalTokens ctx (infixTokens x (str "+") y) = .ok r ∧ ¬ f.Finite r) := by
  refine ⟨fun e he hn => ⟨_, ((C82_one_argument h x x rfl).1 e he).1 hx, hn⟩, fun y hn => ⟨_, ?_, hn⟩⟩
  obtain ⟨config, c, os, hc | hc, rfl⟩ := h
  · obtain ⟨pi, e, hv⟩ := checked_inv hc
    have : (c.view K).getBinary (str "+") = some (Ops.checkedAdd (f.num g)).fn := by rw [hv]; rfl
    rw [eval_infix _ ((C26_never_replaced K debug c os _).2.2 _ this)]; rfl
  · obtain ⟨pi, e, hv⟩ := unchecked_inv hc
    have : (c.view K).getBinary (str "+") = some (Ops.uncheckedAdd (f.num g)).fn := by rw [hv]; rfl
    rw [eval_infix _ ((C26_never_replaced K debug c os _).2.2 _ this)]; rfl

/-! ## C87: random numbers -/

theorem random_call (h : BuiltIn K debug docs f (f.num g) ctx) (xs : List F) :
    evalTokens ctx (callTokens (str "random") xs) = (Ops.random f (f.num g)).fn xs :=
  builtIn_call h (by rfl) (by cases docs <;> rfl) xs

/-- C87. For finite arguments, whatever number is drawn: `random()` is at least 0 and less than 1; `random(m)` is refused for negative `m`, and for
`m` more than 0 it is at least 0 and at most `m`; `random(a, b)` is refused if `b` is less than `a`, and otherwise it is at least `a`, and at most `b`
if the difference `b - a` is a floating point number. -/
theorem C87_random (R : f.Rounds) (h : BuiltIn K debug docs f (f.num g) ctx) :
    let call := fun xs => evalTokens ctx (callTokens (str "random") xs)
    (∃ r, call [] = .ok r ∧ 0 ≤ R.val r ∧ R.val r < 1) ∧
    (∀ m, f.Finite m → R.val m < 0 → call [m] = .err .negativeValue) ∧
    (∀ m, f.Finite m → 0 < R.val m → ∃ r, call [m] = .ok r ∧ 0 ≤ R.val r ∧ R.val r ≤ R.val m) ∧
    (∀ a b, f.Finite a → f.Finite b → R.val b < R.val a → call [a, b] = .err .invalidInput) ∧
    (∀ a b, f.Finite a → f.Finite b → R.val a ≤ R.val b → f.Finite (f.sub b a) → R.val (f.sub b a) = R.val b - R.val a →
      ∃ r, call [a, b] = .ok r ∧ R.val a ≤ R.val r ∧ R.val r ≤ R.val b) := by
  intro call
  have hcall : ∀ xs, call xs = (Ops.random f (f.num g)).fn xs := random_call h
  obtain ⟨hd, hd0, hd1⟩ := R.draw
  have hfin : ∀ x, f.Finite x → Ops.tryToFloat f (f.num g) x = .ok x := by
    intro x hx
    rw [finite_iff] at hx
    show (if f.notFinite x = true then (.err .nan : Res F) else .ok x) = _
    rw [hx]; rfl
  have one : ∀ m, f.Finite m → call [m] = if f.isSignNegative m = true then .err .negativeValue else .ok (f.mul f.random m) := by
    intro m hm
    rw [hcall]
    show (Ops.tryToFloat f (f.num g) m).bind _ = _
    rw [hfin m hm]; rfl
  have two : ∀ a b, f.Finite a → f.Finite b →
      call [a, b] = if f.lt b a = true then .err .invalidInput else .ok (f.add a (f.mul (f.sub b a) f.random)) := by
    intro a b ha hb
    rw [hcall]
    show (Ops.tryToFloat f (f.num g) a).bind _ = _
    rw [hfin a ha]
    show (Ops.tryToFloat f (f.num g) b).bind _ = _
    rw [hfin b hb]; rfl
  refine ⟨⟨f.random, by rw [hcall]; rfl, hd0, hd1⟩, ?_, ?_, ?_, ?_⟩
  · intro m hm hneg
    rw [one m hm, if_pos ((R.sign m hm).1 hneg)]
  · intro m hm hpos
    rw [one m hm, (R.sign m hm).2 hpos]
    have h0 : 0 ≤ R.val f.random * R.val m := Rat.mul_nonneg hd0 (by grind)
    have h1 : R.val f.random * R.val m ≤ R.val m := by
      have := Rat.mul_le_mul_of_nonneg_right (show R.val f.random ≤ 1 by grind) (show 0 ≤ R.val m by grind)
      grind
    obtain ⟨h2, h3⟩ := R.mul _ _ m hd hm hm h0 h1
    refine ⟨_, rfl, ?_, ?_⟩
    · rw [h3, ← R.zero]; exact R.mono _ _ h0
    · rw [h3, ← R.keep m hm]; exact R.mono _ _ (by rw [R.keep m hm]; exact h1)
  · intro a b ha hb hlt
    rw [two a b ha hb, if_pos ((R.lt b a hb ha).mpr hlt)]
  · intro a b ha hb hle hs hsv
    have hn : f.lt b a = false := by
      cases hc : f.lt b a with
      | false => rfl
      | true => have := (R.lt b a hb ha).mp hc; grind
    rw [two a b ha hb, hn]
    have hs0 : 0 ≤ R.val (f.sub b a) := by grind
    have h0 : 0 ≤ R.val (f.sub b a) * R.val f.random := Rat.mul_nonneg hs0 hd0
    have h1 : R.val (f.sub b a) * R.val f.random ≤ R.val (f.sub b a) := by
      have := Rat.mul_le_mul_of_nonneg_left (show R.val f.random ≤ 1 by grind) hs0
      grind
    obtain ⟨h2, h3⟩ := R.mul _ _ (f.sub b a) hs hd hs h0 h1
    have h4 : 0 ≤ R.val (f.mul (f.sub b a) f.random) := by rw [h3, ← R.zero]; exact R.mono _ _ h0
    have h5 : R.val (f.mul (f.sub b a) f.random) ≤ R.val (f.sub b a) := by
      rw [h3, ← R.keep _ hs]; exact R.mono _ _ (by rw [R.keep _ hs]; exact h1)
    obtain ⟨h6, h7⟩ := R.add a (f.mul (f.sub b a) f.random) a b ha h2 ha hb (by grind) (by grind)
    refine ⟨_, rfl, ?_, ?_⟩
    · rw [h7, ← R.keep a ha]; exact R.mono _ _ (by rw [R.keep a ha]; grind)
    · rw [h7, ← R.keep b hb]; exact R.mono _ _ (by grind)

end
end Prexel
