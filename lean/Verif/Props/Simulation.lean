import Verif.Lemmas.SimText
import Verif.Model.Wrapped
import Verif.Props.Tokenizer
/-!
# Properties C51, C75, C76, C77: the same expression over different number types, contexts and builds
-/

set_option linter.unusedVariables false
set_option linter.unusedSimpArgs false

namespace Prexel
variable {N M F X W : Type}

theorem caseVariant_minus {s : Str} (h : CaseVariant (str "-") s) : s = str "-" := by
  unfold CaseVariant at h
  match s with
  | [] => simp [str] at h
  | [c] =>
    have h : [asciiLower '-'] = [asciiLower c] := h
    have h : asciiLower '-' = asciiLower c := by simpa using h
    have h2 := congrArg Char.toNat h
    rw [asciiLower_toNat, asciiLower_toNat] at h2
    have : c.toNat = 45 := by
      simp only [show '-'.toNat = 45 from rfl] at h2
      split at h2 <;> split at h2 <;> omega
    have : c = '-' := Char.ext (UInt32.toNat_inj.mp this)
    subst this; rfl
  | _ :: _ :: _ => simp [str] at h

theorem caseVariant_bang {s : Str} (h : CaseVariant (str "!") s) : s = str "!" := by
  unfold CaseVariant at h
  match s with
  | [] => simp [str] at h
  | [c] =>
    have h : [asciiLower '!'] = [asciiLower c] := h
    have h : asciiLower '!' = asciiLower c := by simpa using h
    have h2 := congrArg Char.toNat h
    rw [asciiLower_toNat, asciiLower_toNat] at h2
    have : c.toNat = 33 := by
      simp only [show '!'.toNat = 33 from rfl] at h2
      split at h2 <;> split at h2 <;> omega
    have : c = '!' := Char.ext (UInt32.toNat_inj.mp this)
    subst this; rfl
  | _ :: _ :: _ => simp [str] at h

/-! ## C51: wrapped numbers -/

section
variable {num : Num X F} {from_ : X → W} {get : W → X}

theorem lift_map {α β : Type} {g : α → β} {a : Res α} {b : Res β} (h : Lift (fun w x => g w = x) .none a b) : a.map g = b := by
  cases h with
  | ok h => simp [Res.map, h]
  | err k => rfl
  | panic => rfl
  | anyErr _ _ h => cases h
  | anyPanic _ h => exact absurd rfl h

theorem wrap_lift (hg : ∀ x, get (from_ x) = x) (r : Res X) : Lift (fun w x => get w = x) .none (r.map from_) r := by
  cases r with
  | ok v => exact .ok (hg v)
  | err k => exact .err k
  | panic => exact .panic

theorem wrap_option (hg : ∀ x, get (from_ x) = x) (o : Option X) :
    Lift (fun w x => get w = x) .none (Res.ofOption (o.map from_) .overflow) (Res.ofOption o .overflow) := by
  cases o with
  | some v => exact .ok (hg v)
  | none => exact .err _

theorem wrapped_numRel (num : Num X F) (hg : ∀ x, get (from_ x) = x) :
    NumRel (fun w x => get w = x) .none (num.wrapped from_ get) num where
  zero := hg _
  one := hg _
  isZero x y h := by subst h; rfl
  isOne x y h := by subst h; rfl
  lt x y x' y' h h' := by subst h h'; rfl
  ge x y x' y' h h' := by subst h h'; rfl
  toF64 x y h := by subst h; rfl
  fromF64 v := wrap_option hg _
  fromUsize n := wrap_option hg _
  fuel x y h := by subst h; rfl

theorem wrapped_checkedRel (num : Num X F) (hg : ∀ x, get (from_ x) = x) :
    CheckedRel (fun w x => get w = x) .none (num.wrapped from_ get) num where
  add x y x' y' h h' := by subst h h'; exact wrap_option hg _
  sub x y x' y' h h' := by subst h h'; exact wrap_option hg _
  mul x y x' y' h h' := by subst h h'; exact wrap_option hg _
  div x y x' y' h h' := by subst h h'; exact wrap_option hg _
  rem x y x' y' h h' := by subst h h'; exact wrap_option hg _
  neg x y h := by subst h; exact wrap_option hg _

theorem wrapped_plainRel (num : Num X F) (hg : ∀ x, get (from_ x) = x) :
    PlainRel (fun w x => get w = x) .none (num.wrapped from_ get) num where
  add x y x' y' h h' := by subst h h'; exact wrap_lift hg _
  mul x y x' y' h h' := by subst h h'; exact wrap_lift hg _
  div x y x' y' h h' := by subst h h'; exact wrap_lift hg _
  rem x y x' y' h h' := by subst h h'; exact wrap_lift hg _
  neg x y h := by subst h; exact wrap_lift hg _

/-- C51, the part that holds in the checked context: every text without a factorial evaluates to the wrapped number of what it evaluates to
over the type of the field, with corresponding variables and constants. Missing: the factorial, which uses the wrong subtraction, see
`C51_subtraction_counterexample`. -/
theorem C51_wrapped_checked_partial (K : Keys) (debug docs : Bool) (f : F64 F) (num : Num X F) (from_ : X → W) (get : W → X)
    (hg : ∀ x, get (from_ x) = x) (config : Config) (c : Context W)
    (hc : Context.checked K debug docs f (num.wrapped from_ get) config = .ok c)
    (d : Context X) (hd : Context.checked K debug docs f num config = .ok d)
    (os : List (Op W)) (os' : List (Op X)) (hos : Pairwise2 (OpRel fun w x => get w = x) os os') (parse : Str → Option X)
    (splitter : Str → List Str) (s : Str)
    (hs : ∀ ts, tokenize (wrappedParse parse from_) splitter ((c.runAll K debug os).view K) s = .ok ts → .unary (str "!") ∉ ts) :
    (eval (wrappedParse parse from_) splitter ((c.runAll K debug os).view K) s).map get =
      eval parse splitter ((d.runAll K debug os').view K) s := by
  obtain ⟨pi, e, h1, h2, h3⟩ := checked_parts hc
  obtain ⟨pi', e', h4, h5, h6⟩ := checked_parts hd
  have hn := wrapped_numRel (F := F) num hg
  have hk := wrapped_checkedRel (F := F) num hg
  have hval := build_valRel (R := fun w x => get w = x) K (fromF64_rel hn h1 h4) (fromF64_rel hn h2 h5) h3 h6
  obtain ⟨_, _, hv⟩ := checked_inv hc
  obtain ⟨_, _, hv'⟩ := checked_inv hd
  refine lift_map (eval_sim ?_ ?_ splitter s fun ts hts => ?_)
  · exact built_shapeRel hv hv' hval ((checkedBinary_sim hn hk).weaken fun _ _ _ => trivial)
      (.cons ⟨rfl, rfl⟩ (.cons ⟨rfl, rfl⟩ (.cons ⟨rfl, rfl⟩ .nil)))
      ((checkedFunctions_sim docs hn hk).weaken fun _ _ _ => trivial) hos (.inl rfl)
  · intro w
    unfold wrappedParse
    cases parse w with
    | none => exact .none
    | some x => exact .some (hg x)
  · refine built_ctxRel hv hv' hval (bb := []) (checkedBinary_sim hn hk).toExcept (checkedUnary_sim_no_factorial hn hk)
      (checkedFunctions_sim docs hn hk) hos (.inl rfl) (by simp) ts ⟨by simp, ?_⟩
    intro n hm x hx hv
    simp only [List.mem_cons, List.not_mem_nil, or_false] at hx
    subst hx
    rw [caseVariant_bang hv] at hm
    exact hs ts hts hm

/-- C51, the part that holds in the unchecked context: every text without subtraction and without a factorial. -/
theorem C51_wrapped_unchecked_partial (K : Keys) (debug : Bool) (f : F64 F) (num : Num X F) (from_ : X → W) (get : W → X)
    (hg : ∀ x, get (from_ x) = x) (config : Config) (c : Context W)
    (hc : Context.unchecked K debug f (num.wrapped from_ get) config = .ok c)
    (d : Context X) (hd : Context.unchecked K debug f num config = .ok d)
    (os : List (Op W)) (os' : List (Op X)) (hos : Pairwise2 (OpRel fun w x => get w = x) os os') (parse : Str → Option X)
    (splitter : Str → List Str) (s : Str)
    (hs : ∀ ts, tokenize (wrappedParse parse from_) splitter ((c.runAll K debug os).view K) s = .ok ts →
      .binary (str "-") ∉ ts ∧ .unary (str "!") ∉ ts) :
    (eval (wrappedParse parse from_) splitter ((c.runAll K debug os).view K) s).map get =
      eval parse splitter ((d.runAll K debug os').view K) s := by
  obtain ⟨pi, e, h1, h2, h3⟩ := unchecked_parts hc
  obtain ⟨pi', e', h4, h5, h6⟩ := unchecked_parts hd
  have hn := wrapped_numRel (F := F) num hg
  have hk := wrapped_plainRel (F := F) num hg
  have hval := build_valRel (R := fun w x => get w = x) K (fromF64_rel hn h1 h4) (fromF64_rel hn h2 h5) h3 h6
  obtain ⟨_, _, hv⟩ := unchecked_inv hc
  obtain ⟨_, _, hv'⟩ := unchecked_inv hd
  refine lift_map (eval_sim ?_ ?_ splitter s fun ts hts => ?_)
  · exact built_shapeRel hv hv' hval
      (.cons ⟨rfl, trivial⟩ (.cons ⟨rfl, trivial⟩ (.cons ⟨rfl, trivial⟩ (.cons ⟨rfl, trivial⟩ (.cons ⟨rfl, trivial⟩ (.cons ⟨rfl, trivial⟩ .nil))))))
      (.cons ⟨rfl, rfl⟩ (.cons ⟨rfl, rfl⟩ (.cons ⟨rfl, rfl⟩ .nil)))
      ((uncheckedFunctions_sim hn hk).weaken fun _ _ _ => trivial) hos (.inl rfl)
  · intro w
    unfold wrappedParse
    cases parse w with
    | none => exact .none
    | some x => exact .some (hg x)
  · refine built_ctxRel hv hv' hval (uncheckedBinary_sim_no_minus hn hk) (uncheckedUnary_sim_no_factorial hn hk)
      (uncheckedFunctions_sim hn hk) hos (.inl rfl) ?_ ts ⟨?_, ?_⟩
    · intro n hx hv
      simp only [List.mem_cons, List.not_mem_nil, or_false] at hx
      subst hx
      exact absurd (caseVariant_minus hv) (by decide)
    · intro n hm x hx hv
      simp only [List.mem_cons, List.not_mem_nil, or_false] at hx
      subst hx
      rw [caseVariant_minus hv] at hm
      exact (hs ts hts).1 hm
    · intro n hm x hx hv
      simp only [List.mem_cons, List.not_mem_nil, or_false] at hx
      subst hx
      rw [caseVariant_bang hv] at hm
      exact (hs ts hts).2 hm

/-- C51, what the code does: in the unchecked context the subtraction of two wrapped numbers is the sum of their fields. -/
theorem C51_subtraction_counterexample (K : Keys) (debug : Bool) (f : F64 F) (num : Num X F) (from_ : X → W) (get : W → X)
    (config : Config) (c : Context W) (hc : Context.unchecked K debug f (num.wrapped from_ get) config = .ok c) (os : List (Op W)) (x y : W) :
    evalTokens ((c.runAll K debug os).view K) [.number x, .binary (str "-"), .number y] = (num.add (get x) (get y)).map from_ := by
  obtain ⟨pi, e, hv⟩ := unchecked_inv hc
  have h := (C26_never_replaced K debug c os (str "-")).2.2 (Ops.uncheckedSub (num.wrapped from_ get)).fn (by rw [hv]; rfl)
  exact eval_infix _ h x y

/-- `7 - 2` is 9. -/
example : ∃ c, Context.unchecked Demo.keys true Demo.float ((Demo.int i32 true).wrapped (fun x => (x, ())) Prod.fst) Config.new = .ok c ∧
    evalTokens (c.view Demo.keys) [.number (Demo.i32 7, ()), .binary (str "-"), .number (Demo.i32 2, ())] = .ok (Demo.i32 9, ()) := by
  obtain ⟨c, hc, -⟩ := unchecked_build Demo.keys true Demo.float ((Demo.int i32 true).wrapped (fun x => (x, ())) Prod.fst) Config.new
    (Demo.i32 3, ()) (Demo.i32 2, ()) (by decide) (by decide)
  exact ⟨c, hc, C51_subtraction_counterexample _ _ _ _ _ _ _ _ hc [] _ _⟩
end

/-! ## C75: wider integers -/

section
variable {w w' : Width}

theorem fits_wider (h : w.bits ≤ w'.bits) {x : Int} (hx : w.Fits x) : w'.Fits x := by
  have : 2 ^ w.bits ≤ 2 ^ w'.bits := Nat.pow_le_pow_right (by decide) h
  unfold Width.Fits Width.lo Width.hi at *
  omega

theorem of?_some {x : Int} {y : SInt w} (h : SInt.of? x = some y) : y.1 = x ∧ w.Fits x := by
  unfold SInt.of? at h
  split at h
  · cases h; exact ⟨rfl, by assumption⟩
  · cases h

theorem of?_fits {x : Int} (h : w.Fits x) : SInt.of? x = some (⟨x, h⟩ : SInt w) := by unfold SInt.of?; rw [dif_pos h]; rfl

theorem of?_wider (h : w.bits ≤ w'.bits) (x : Int) :
    Lift SameInt .failures (Res.ofOption (SInt.of? x : Option (SInt w)) .overflow) (Res.ofOption (SInt.of? x : Option (SInt w')) .overflow) := by
  cases h1 : (SInt.of? x : Option (SInt w)) with
  | none => exact .anyErr _ _ rfl
  | some y =>
    obtain ⟨h2, h3⟩ := of?_some h1
    rw [of?_fits (fits_wider h h3)]
    exact .ok h2

theorem division_wider (h : w.bits ≤ w'.bits) (g : Int → Int → Int) {x x' : SInt w} {y y' : SInt w'} (hx : SameInt x y) (hx' : SameInt x' y') :
    Lift SameInt .failures (Res.ofOption (SInt.checkedDivision g x x') .overflow) (Res.ofOption (SInt.checkedDivision g y y') .overflow) := by
  unfold SInt.checkedDivision
  unfold SameInt at hx hx'
  rw [hx, hx']
  split
  · exact .anyErr _ _ rfl
  · split
    · exact .anyErr _ _ rfl
    · rename_i h1 h2
      split
      · rename_i h3
        exfalso
        have h4 := x.2
        have : 2 ^ w.bits ≤ 2 ^ w'.bits := Nat.pow_le_pow_right (by decide) h
        rw [hx] at h4
        unfold Width.Fits Width.lo at *
        omega
      · exact of?_wider h _

theorem arith_wider (h : w.bits ≤ w'.bits) (debug' : Bool) (x : Int) :
    Lift SameInt .failures (SInt.arith true x : Res (SInt w)) (SInt.arith debug' x : Res (SInt w')) := by
  unfold SInt.arith
  cases h1 : (SInt.of? x : Option (SInt w)) with
  | none => exact .anyPanic _ (by decide)
  | some y =>
    obtain ⟨h2, h3⟩ := of?_some h1
    rw [of?_fits (fits_wider h h3)]
    exact .ok h2

theorem plainDivision_wider (h : w.bits ≤ w'.bits) (g : Int → Int → Int) {x x' : SInt w} {y y' : SInt w'} (hx : SameInt x y) (hx' : SameInt x' y') :
    Lift SameInt .failures (SInt.division g x x') (SInt.division g y y') := by
  have := division_wider h g hx hx'
  unfold SInt.division
  cases h1 : SInt.checkedDivision g x x' with
  | none => exact .anyPanic _ (by decide)
  | some z =>
    rw [h1] at this
    obtain ⟨z', hz', hr⟩ := this.of_ok
    cases h2 : SInt.checkedDivision g y y' with
    | none => rw [h2] at hz'; cases hz'
    | some z'' =>
      rw [h2] at hz'
      simp only [Res.ofOption, Res.ok.injEq] at hz'
      subst hz'
      exact .ok hr

variable {toF64 : SInt w → F} {fromF64 : F → Option (SInt w)} {toF64' : SInt w' → F} {fromF64' : F → Option (SInt w')}

theorem wider_numRel (h : w.bits ≤ w'.bits) (hf : SameFloats toF64 fromF64 toF64' fromF64') (debug debug' : Bool) :
    NumRel SameInt .failures (SInt.num w debug toF64 fromF64) (SInt.num w' debug' toF64' fromF64') where
  zero := rfl
  one := rfl
  isZero x y hx := by simp only [SInt.num]; rw [show x.1 = y.1 from hx]
  isOne x y hx := by simp only [SInt.num]; rw [show x.1 = y.1 from hx]
  lt x y x' y' hx hx' := by simp only [SInt.num]; rw [show x.1 = y.1 from hx, show x'.1 = y'.1 from hx']
  ge x y x' y' hx hx' := by simp only [SInt.num]; rw [show x.1 = y.1 from hx, show x'.1 = y'.1 from hx']
  toF64 x y hx := by simp only [SInt.num]; rw [hf.to x y hx]
  fromF64 v := by
    simp only [SInt.num]
    cases h1 : fromF64 v with
    | none => exact .anyErr _ _ rfl
    | some x =>
      obtain ⟨y, hy, hr⟩ := hf.from_ v x h1
      rw [hy]; exact .ok hr
  fromUsize n := of?_wider h _
  fuel x y hx := by simp only [SInt.num]; rw [show x.1 = y.1 from hx]

theorem wider_checkedRel (h : w.bits ≤ w'.bits) (debug debug' : Bool) :
    CheckedRel SameInt .failures (SInt.num w debug toF64 fromF64) (SInt.num w' debug' toF64' fromF64') where
  add x y x' y' hx hx' := by simp only [SInt.num]; rw [show x.1 = y.1 from hx, show x'.1 = y'.1 from hx']; exact of?_wider h _
  sub x y x' y' hx hx' := by simp only [SInt.num]; rw [show x.1 = y.1 from hx, show x'.1 = y'.1 from hx']; exact of?_wider h _
  mul x y x' y' hx hx' := by simp only [SInt.num]; rw [show x.1 = y.1 from hx, show x'.1 = y'.1 from hx']; exact of?_wider h _
  div x y x' y' hx hx' := division_wider h _ hx hx'
  rem x y x' y' hx hx' := division_wider h _ hx hx'
  neg x y hx := by simp only [SInt.num]; rw [show x.1 = y.1 from hx]; exact of?_wider h _

theorem wider_plainRel (h : w.bits ≤ w'.bits) (debug' : Bool) :
    PlainRel SameInt .failures (SInt.num w true toF64 fromF64) (SInt.num w' debug' toF64' fromF64') where
  add x y x' y' hx hx' := by simp only [SInt.num]; rw [show x.1 = y.1 from hx, show x'.1 = y'.1 from hx']; exact arith_wider h _ _
  mul x y x' y' hx hx' := by simp only [SInt.num]; rw [show x.1 = y.1 from hx, show x'.1 = y'.1 from hx']; exact arith_wider h _ _
  div x y x' y' hx hx' := plainDivision_wider h _ hx hx'
  rem x y x' y' hx hx' := plainDivision_wider h _ hx hx'
  neg x y hx := by simp only [SInt.num]; rw [show x.1 = y.1 from hx]; exact arith_wider h _ _

theorem wider_minusRel (h : w.bits ≤ w'.bits) (debug' : Bool) :
    MinusRel SameInt .failures (SInt.num w true toF64 fromF64) (SInt.num w' debug' toF64' fromF64') := by
  intro x y x' y' hx hx'
  simp only [SInt.num]; rw [show x.1 = y.1 from hx, show x'.1 = y'.1 from hx']; exact arith_wider h _ _

theorem parse_wider (h : w.bits ≤ w'.bits) (s : Str) (x : SInt w) (hx : SInt.parse w s = some x) :
    ∃ y, SInt.parse w' s = some y ∧ SameInt x y := by
  have key : ∀ neg t, SInt.signed w 10 neg t = some x → ∃ y, SInt.signed w' 10 neg t = some y ∧ SameInt x y := by
    intro neg t ht
    unfold SInt.signed at ht ⊢
    split at ht
    · cases ht
    · rename_i hne
      rw [if_neg hne]
      cases hdg : SInt.digits 10 0 t with
      | none => rw [hdg] at ht; cases ht
      | some n =>
        rw [hdg] at ht
        obtain ⟨h2, h3⟩ := of?_some ht
        exact ⟨_, of?_fits (fits_wider h h3), h2⟩
  unfold SInt.parse SInt.fromStrRadix at hx ⊢
  split at hx <;> exact key _ _ hx

theorem digits_all {acc : Nat} {t : Str} {n : Nat} (h : SInt.digits 10 acc t = some n) : ∀ c ∈ t, isDigit c = true := by
  induction t generalizing acc with
  | nil => simp
  | cons c t ih =>
    simp only [SInt.digits] at h
    intro x hx
    cases hdg : SInt.digit 10 c with
    | none => rw [hdg] at h; cases h
    | some k =>
      rw [hdg] at h
      rcases List.mem_cons.mp hx with rfl | hx
      · unfold SInt.digit at hdg
        split at hdg
        · rename_i hd
          simp only [isDigit, Bool.and_eq_true, decide_eq_true_eq]
          exact ⟨show x.val ≥ 48 from UInt32.le_iff_toNat_le.mpr hd.1, show x.val ≤ 57 from UInt32.le_iff_toNat_le.mpr (by have := hd.2; show x.toNat ≤ 57; omega)⟩
        · cases hdg
      · exact ih h x hx

/-- A literal has a digit, and its first character is a digit or a sign. -/
theorem parse_digit {s : Str} (h : (SInt.parse w s).isSome = true) : (∃ c ∈ s, isDigit c = true) ∧ ∀ c, s = [c] → isDigit c = true := by
  have key : ∀ neg t, (SInt.signed w 10 neg t).isSome = true → t ≠ [] ∧ ∀ c ∈ t, isDigit c = true := by
    intro neg t ht
    unfold SInt.signed at ht
    split at ht
    · cases ht
    · rename_i hne
      refine ⟨hne, ?_⟩
      cases hdg : SInt.digits 10 0 t with
      | none => rw [hdg] at ht; cases ht
      | some n => exact digits_all hdg
  have mem : ∀ t : Str, t ≠ [] → (∀ c ∈ t, isDigit c = true) → ∃ c ∈ t, isDigit c = true := by
    intro t ht hall
    cases t with
    | nil => exact absurd rfl ht
    | cons a t => exact ⟨a, by simp, hall a (by simp)⟩
  unfold SInt.parse SInt.fromStrRadix at h
  split at h
  · rename_i t
    obtain ⟨h1, h2⟩ := key _ _ h
    obtain ⟨c, hc, hd⟩ := mem t h1 h2
    refine ⟨⟨c, by simp [hc], hd⟩, ?_⟩
    intro c hc
    simp at hc
    exact absurd hc.2 h1
  · rename_i t
    obtain ⟨h1, h2⟩ := key _ _ h
    obtain ⟨c, hc, hd⟩ := mem t h1 h2
    refine ⟨⟨c, by simp [hc], hd⟩, ?_⟩
    intro c hc
    simp at hc
    exact absurd hc.2 h1
  · obtain ⟨h1, h2⟩ := key _ _ h
    exact ⟨mem s h1 h2, fun c hc => h2 c (by simp [hc])⟩

theorem digit_lower {a b : Char} (h : asciiLower a = asciiLower b) (hb : isDigit b = true) : isDigit a = true := by
  have h2 := congrArg Char.toNat h
  rw [asciiLower_toNat, asciiLower_toNat] at h2
  simp only [isDigit, Bool.and_eq_true, decide_eq_true_eq] at hb ⊢
  have hb1 : 48 ≤ b.toNat := hb.1
  have hb2 : b.toNat ≤ 57 := hb.2
  have : a.toNat = b.toNat := by
    split at h2 <;> split at h2 <;> omega
  exact ⟨show 48 ≤ a.toNat by omega, show a.toNat ≤ 57 by omega⟩

/-- None of the names in a table without digits is a literal. -/
theorem lookup_literal {V : Type} {fs : List (Named V)} (hf : ∀ n ∈ fs.flatMap Named.names, n.any isDigit = false) {s : Str}
    (h : (SInt.parse w s).isSome = true) : (lookup hashSame fs s).isSome = false := by
  rw [Bool.eq_false_iff]
  intro hl
  obtain ⟨n, hn, hs⟩ := (lookup_isSome fs s).mp hl
  obtain ⟨⟨c, hc, hd⟩, -⟩ := parse_digit h
  have hmap : n.map asciiLower = s.map asciiLower := by simpa [hashSame, hashInput] using hs
  have : asciiLower c ∈ n.map asciiLower := by rw [hmap]; exact List.mem_map.mpr ⟨c, hc, rfl⟩
  obtain ⟨a, ha, hac⟩ := List.mem_map.mp this
  have := digit_lower hac hd
  have h2 := hf n hn
  rw [List.any_eq_false] at h2
  exact h2 a ha this

theorem digit_no_group (c : Config) {ch : Char} (h : isDigit ch = true) : c.getGroupSymbol ch = none := by
  unfold Config.getGroupSymbol Grouping.new
  repeat' split
  all_goals first
    | rfl
    | (rename_i h'; rcases h' with rfl | rfl <;> exact absurd h (by decide))

theorem onlyNumber {v : Ctx (SInt w)} {bs : List (Named (BinFn (SInt w)))} {us : List (Named (UnFn (SInt w)))} {fs : List (Named (Fn (SInt w)))}
    (h1 : v.getFunction = lookup hashSame fs) (h2 : v.getUnary = lookup hashSame us) (h3 : v.getBinary = lookup hashSame bs)
    (hf : ∀ n ∈ fs.flatMap Named.names, n.any isDigit = false) (hu : ∀ n ∈ us.flatMap Named.names, n.any isDigit = false)
    (hb : ∀ n ∈ bs.flatMap Named.names, n.any isDigit = false) (hv : NoNumberNames w' v) {s : Str}
    (hs : (SInt.parse w' s).isSome = true) : OnlyNumber v s := by
  refine ⟨(hv s hs).1, (hv s hs).2, ?_, ?_, ?_, ?_⟩
  · simp only [Ctx.isFunction, h1]; exact lookup_literal hf hs
  · simp only [Ctx.isBinary, h3]; exact lookup_literal hb hs
  · simp only [Ctx.isUnary, h2]; exact lookup_literal hu hs
  · have h4 := (parse_digit hs).2
    unfold otherToken
    split
    · rename_i h5; exact absurd (h4 _ h5) (by decide)
    · split
      · rename_i h5; exact absurd (h4 _ h5) (by decide)
      · split
        · rename_i ch _ _
          simp only [digit_no_group v.config (h4 ch rfl)]
          split <;> rfl
        · rfl

/-- C75. Over a checked context, a text that evaluates to an integer over a narrower type evaluates to the same integer over a wider one, with
the same variables and constants. In release builds the text must not contain a factorial, which wraps around. -/
theorem C75_wider_checked (K : Keys) (debug docs : Bool) (f : F64 F) (hw : w.bits ≤ w'.bits)
    (hf : SameFloats toF64 fromF64 toF64' fromF64') (config : Config)
    (c : Context (SInt w)) (hc : Context.checked K debug docs f (SInt.num w debug toF64 fromF64) config = .ok c)
    (d : Context (SInt w')) (hd : Context.checked K debug docs f (SInt.num w' debug toF64' fromF64') config = .ok d)
    (os : List (Op (SInt w))) (os' : List (Op (SInt w'))) (hos : Pairwise2 (OpRel SameInt) os os')
    (hnn : NoNumberNames w' ((c.runAll K debug os).view K)) (splitter : Str → List Str) (s : Str)
    (hs : debug = true ∨ ∀ ts, tokenize (SInt.parse w) splitter ((c.runAll K debug os).view K) s = .ok ts → .unary (str "!") ∉ ts)
    (v : SInt w) (hv : eval (SInt.parse w) splitter ((c.runAll K debug os).view K) s = .ok v) :
    ∃ v' : SInt w', eval (SInt.parse w') splitter ((d.runAll K debug os').view K) s = .ok v' ∧ v'.1 = v.1 := by
  obtain ⟨pi, e, h1, h2, h3⟩ := checked_parts hc
  obtain ⟨pi', e', h4, h5, h6⟩ := checked_parts hd
  have hn := wider_numRel hw hf debug debug
  have hk := wider_checkedRel (toF64 := toF64) (fromF64 := fromF64) (toF64' := toF64') (fromF64' := fromF64') hw debug debug
  have hval := build_valRel (R := SameInt) K (fromF64_rel hn h1 h4) (fromF64_rel hn h2 h5) h3 h6
  obtain ⟨_, _, hcv⟩ := checked_inv hc
  obtain ⟨_, _, hdv⟩ := checked_inv hd
  obtain ⟨_, c2, c3, c4⟩ := view_values K debug hos.onlyValues.1 hcv
  have hsh := built_shapeRel hcv hdv hval ((checkedBinary_sim hn hk).weaken fun _ _ _ => trivial)
      (.cons ⟨rfl, rfl⟩ (.cons ⟨rfl, rfl⟩ (.cons ⟨rfl, rfl⟩ .nil)))
      ((checkedFunctions_sim docs hn hk).weaken fun _ _ _ => trivial) hos (.inl rfl : SameChecks debug debug os)
  obtain ⟨v', hv', hr⟩ := eval_grow (R := SameInt) hsh (fun t n hn => parse_wider hw t n hn)
    (fun t _ ht => onlyNumber c2 c3 c4 (by rw [checkedFunctions_names]; cases docs <;> decide)
      (show ∀ n ∈ ["+", "-", "!"].map str, n.any isDigit = false by decide)
      (show ∀ n ∈ ["+", "-", "*", "/", "^", "mod"].map str, n.any isDigit = false by decide) hnn ht)
    (by rw [show SInt.parse w ['i'] = none from rfl, show SInt.parse w' ['i'] = none from rfl]; rfl) splitter s (fun ts hts => by
      rcases hs with rfl | hs
      · exact built_ctxRel hcv hdv hval (bb := []) (bu := []) (checkedBinary_sim hn hk).toExcept
          (checkedUnary_sim hn hk (wider_plainRel hw _) (wider_minusRel hw _)).toExcept (checkedFunctions_sim docs hn hk) hos (.inl rfl) (by simp)
          ts ⟨by simp, by simp⟩
      · refine built_ctxRel hcv hdv hval (bb := []) (checkedBinary_sim hn hk).toExcept (checkedUnary_sim_no_factorial hn hk)
          (checkedFunctions_sim docs hn hk) hos (.inl rfl) (by simp) ts ⟨by simp, ?_⟩
        intro n hm x hx hv
        simp only [List.mem_cons, List.not_mem_nil, or_false] at hx
        subst hx
        rw [caseVariant_bang hv] at hm
        exact hs ts hts hm) v hv
  exact ⟨v', hv', Eq.symm hr⟩

/-- C75 for unchecked contexts, in debug builds. -/
theorem C75_wider_unchecked (K : Keys) (f : F64 F) (hw : w.bits ≤ w'.bits) (hf : SameFloats toF64 fromF64 toF64' fromF64') (config : Config)
    (c : Context (SInt w)) (hc : Context.unchecked K true f (SInt.num w true toF64 fromF64) config = .ok c)
    (d : Context (SInt w')) (hd : Context.unchecked K true f (SInt.num w' true toF64' fromF64') config = .ok d)
    (os : List (Op (SInt w))) (os' : List (Op (SInt w'))) (hos : Pairwise2 (OpRel SameInt) os os')
    (hnn : NoNumberNames w' ((c.runAll K true os).view K)) (splitter : Str → List Str) (s : Str)
    (v : SInt w) (hv : eval (SInt.parse w) splitter ((c.runAll K true os).view K) s = .ok v) :
    ∃ v' : SInt w', eval (SInt.parse w') splitter ((d.runAll K true os').view K) s = .ok v' ∧ v'.1 = v.1 := by
  obtain ⟨pi, e, h1, h2, h3⟩ := unchecked_parts hc
  obtain ⟨pi', e', h4, h5, h6⟩ := unchecked_parts hd
  have hn := wider_numRel hw hf true true
  have hk := wider_plainRel (toF64 := toF64) (fromF64 := fromF64) (toF64' := toF64') (fromF64' := fromF64') hw true
  have hm := wider_minusRel (toF64 := toF64) (fromF64 := fromF64) (toF64' := toF64') (fromF64' := fromF64') hw true
  have hval := build_valRel (R := SameInt) K (fromF64_rel hn h1 h4) (fromF64_rel hn h2 h5) h3 h6
  obtain ⟨_, _, hcv⟩ := unchecked_inv hc
  obtain ⟨_, _, hdv⟩ := unchecked_inv hd
  obtain ⟨_, c2, c3, c4⟩ := view_values K true hos.onlyValues.1 hcv
  have hsh := built_shapeRel hcv hdv hval ((uncheckedBinary_sim hn hk hm).weaken fun _ _ _ => trivial)
      (.cons ⟨rfl, rfl⟩ (.cons ⟨rfl, rfl⟩ (.cons ⟨rfl, rfl⟩ .nil)))
      ((uncheckedFunctions_sim hn hk).weaken fun _ _ _ => trivial) hos (.inl rfl : SameChecks true true os)
  obtain ⟨v', hv', hr⟩ := eval_grow (R := SameInt) hsh (fun t n hn => parse_wider hw t n hn)
    (fun t _ ht => onlyNumber c2 c3 c4 (by rw [uncheckedFunctions_names]; decide)
      (show ∀ n ∈ ["+", "-", "!"].map str, n.any isDigit = false by decide)
      (show ∀ n ∈ ["+", "-", "*", "/", "^", "mod"].map str, n.any isDigit = false by decide) hnn ht)
    (by rw [show SInt.parse w ['i'] = none from rfl, show SInt.parse w' ['i'] = none from rfl]; rfl) splitter s (fun ts hts =>
      built_ctxRel hcv hdv hval (bb := []) (bu := []) (uncheckedBinary_sim hn hk hm).toExcept
          (uncheckedUnary_sim hn hk hm).toExcept (uncheckedFunctions_sim hn hk) hos (.inl rfl) (by simp) ts ⟨by simp, by simp⟩) v hv
  exact ⟨v', hv', Eq.symm hr⟩

/-- The toy conversions agree. -/
theorem demo_sameFloats (hw : w.bits ≤ w'.bits) :
    SameFloats (fun x : SInt w => x.1) SInt.of? (fun x : SInt w' => x.1) SInt.of? where
  to _ _ h := h
  from_ v x h := by
    obtain ⟨h1, h2⟩ := of?_some h
    exact ⟨_, of?_fits (fits_wider hw h2), h1⟩

theorem constants_not_numbers {v : Ctx N} {config : Config} {pi e : N} {bs : List (Named (BinFn N))} {us : List (Named (UnFn N))}
    {fs : List (Named (Fn N))} (hv : v = tablesCtx config [(str "PI", pi), (str "E", e)] bs us fs) : NoNumberNames w v := by
  subst hv
  intro s hs
  refine ⟨rfl, ?_⟩
  rw [Bool.eq_false_iff]
  intro h
  simp only [Ctx.isConstant, tablesCtx] at h
  obtain ⟨x, hx⟩ := Option.isSome_iff_exists.mp h
  obtain ⟨y, hy, -, hk⟩ := lookupConstant_some hx
  obtain ⟨⟨ch, hch, hd⟩, -⟩ := parse_digit hs
  have hmap : y.1.map asciiLower = s.map asciiLower := by simpa [hashSame, hashInput] using hk
  have : asciiLower ch ∈ y.1.map asciiLower := by rw [hmap]; exact List.mem_map.mpr ⟨ch, hch, rfl⟩
  obtain ⟨a, ha, hac⟩ := List.mem_map.mp this
  have h2 := digit_lower hac hd
  simp only [List.mem_cons, List.not_mem_nil, or_false] at hy
  have key : ∀ l : Str, l.any isDigit = false → a ∈ l → False := by
    intro l hl ha
    rw [List.any_eq_false] at hl
    exact hl a ha h2
  rcases hy with rfl | rfl
  · exact key (str "PI") (by decide) ha
  · exact key (str "E") (by decide) ha

/-- `2147483647 - 1` over `i32` and over `i64`; `2147483647 + 1` fits only the latter. -/
example : ∃ c d, Context.checked Demo.keys true true Demo.float (Demo.int i32 true) Config.new = .ok c ∧
    Context.checked Demo.keys true true Demo.float (Demo.int i64 true) Config.new = .ok d ∧ NoNumberNames i64 (c.view Demo.keys) ∧
    eval (SInt.parse i32) (split defaultRules) (c.view Demo.keys) (str "2147483647 - 1") = .ok (Demo.i32 2147483646) ∧
    (∃ v, eval (SInt.parse i64) (split defaultRules) (d.view Demo.keys) (str "2147483647 - 1") = .ok v ∧ v.1 = 2147483646) ∧
    eval (SInt.parse i32) (split defaultRules) (c.view Demo.keys) (str "2147483647 + 1") = .err .overflow := by
  obtain ⟨c, hc, hv⟩ := checked_build Demo.keys true true Demo.float (Demo.int i32 true) Config.new (Demo.i32 3) (Demo.i32 2)
    (by decide) (by decide)
  obtain ⟨d, hd, hv'⟩ := checked_build Demo.keys true true Demo.float (Demo.int i64 true) Config.new ⟨3, by decide⟩ ⟨2, by decide⟩
    (by decide) (by decide)
  have hnn : NoNumberNames i64 (c.view Demo.keys) := constants_not_numbers hv
  have h1 : eval (SInt.parse i32) (split defaultRules) (c.view Demo.keys) (str "2147483647 - 1") = .ok (Demo.i32 2147483646) := by
    rw [hv]; decide +kernel
  refine ⟨c, d, hc, hd, hnn, h1, ?_, by rw [hv]; decide +kernel⟩
  exact C75_wider_checked Demo.keys true true Demo.float (by decide) (demo_sameFloats (by decide)) Config.new c hc d hd [] [] .nil hnn
    (split defaultRules) (str "2147483647 - 1") (.inl rfl) _ h1

/-- Why C75 needs a debug build for unchecked contexts: `2147483647 + 1` wraps around over `i32` in a release build. -/
theorem C75_release_counterexample : ∃ c d,
    Context.unchecked Demo.keys false Demo.float (Demo.int i32 false) Config.new = .ok c ∧
    Context.unchecked Demo.keys false Demo.float (Demo.int i64 false) Config.new = .ok d ∧
    eval (SInt.parse i32) (split defaultRules) (c.view Demo.keys) (str "2147483647 + 1") = .ok (Demo.i32 (-2147483648)) ∧
    eval (SInt.parse i64) (split defaultRules) (d.view Demo.keys) (str "2147483647 + 1") = .ok ⟨2147483648, by decide⟩ := by
  obtain ⟨c, hc, hv⟩ := unchecked_build Demo.keys false Demo.float (Demo.int i32 false) Config.new (Demo.i32 3) (Demo.i32 2)
    (by decide) (by decide)
  obtain ⟨d, hd, hv'⟩ := unchecked_build Demo.keys false Demo.float (Demo.int i64 false) Config.new ⟨3, by decide⟩ ⟨2, by decide⟩
    (by decide) (by decide)
  exact ⟨c, d, hc, hd, by rw [hv]; decide +kernel, by rw [hv']; decide +kernel⟩
end

/-! ## C76: checked and unchecked contexts -/

section
variable {num : Num N F} {slack : Slack}

theorem Pairwise2.eq {α : Type} {xs ys : List α} (h : Pairwise2 Eq xs ys) : xs = ys := by
  induction h with
  | nil => rfl
  | cons h _ ih => rw [h, ih]

theorem FnRel.refl (g : Fn N) : FnRel Eq slack g g := fun xs ys h => by rw [h.eq]; exact Lift.refl _

theorem consistent_fold {g g' : N → N → Res N} (h : ∀ x y, Lift Eq slack (g x y) (g' x y)) :
    ∀ x y x' y', x = y → x' = y' → Lift Eq slack (g x x') (g' y y') := by
  rintro x y x' y' rfl rfl
  exact h x x'

theorem consistent_avg (h : Consistent slack num) : FnRel Eq slack (Ops.checkedAvg num).fn (Ops.uncheckedAvg num).fn := by
  intro xs ys hxs
  have := hxs.eq
  subst this
  cases xs with
  | nil => exact .err _
  | cons x xs =>
    refine (foldArgs_sim (consistent_fold h.add) hxs .none).bind fun o o' ho => ?_
    cases ho with
    | none => exact .err _
    | @some n n' hn =>
      subst hn
      simp only
      cases hk : num.fromUsize (x :: xs).length with
      | none => exact .panic
      | some k => exact h.div n k (h.count _ k (by simp) hk)

theorem consistent_guard {g g' : N → N → Res N} (h : ∀ x y, num.isZero y = false → Lift Eq slack (g x y) (g' x y)) (x y : N) :
    Lift Eq slack (if num.isZero y then .err .divisionByZero else g x y) (if num.isZero y then .err .divisionByZero else g' x y) := by
  cases hz : num.isZero y with
  | true => exact .err _
  | false => exact h x y hz

theorem consistent_binary (f : F64 F) (h : Consistent slack num) :
    TableRel (BinRel Eq slack) (Ops.checkedBinary f num) (Ops.uncheckedBinary f num) := by
  have key {g g' : N → N → Res N} (h : ∀ x y, Lift Eq slack (g x y) (g' x y)) := consistent_fold h
  exact .cons ⟨rfl, rfl, rfl, key h.add⟩ (.cons ⟨rfl, rfl, rfl, key h.sub⟩ (.cons ⟨rfl, rfl, rfl, key h.mul⟩
    (.cons ⟨rfl, rfl, rfl, key (consistent_guard h.div)⟩ (.cons ⟨rfl, rfl, rfl, key fun _ _ => Lift.refl _⟩
    (.cons ⟨rfl, rfl, rfl, key (consistent_guard h.rem)⟩ .nil)))))

theorem consistent_unary (f : F64 F) (h : Consistent slack num) :
    TableRel (UnRel Eq slack) (Ops.checkedUnary f num) (Ops.uncheckedUnary f num) := by
  refine .cons ⟨rfl, rfl, ?_⟩ (.cons ⟨rfl, rfl, ?_⟩ (.cons ⟨rfl, rfl, ?_⟩ .nil))
  · rintro x _ rfl; exact Lift.refl _
  · rintro x _ rfl; exact h.neg x
  · rintro x _ rfl; exact Lift.refl _

theorem consistent_functions (docs : Bool) (f : F64 F) (h : Consistent slack num) :
    ∀ g ∈ Ops.uncheckedFunctions f num, ∃ g' ∈ Ops.checkedFunctions docs f num, g'.names = g.names ∧ FnRel Eq slack g'.fn g.fn := by
  intro g hg
  simp only [Ops.uncheckedFunctions, List.cons_append, List.nil_append, List.mem_cons] at hg
  have same : g ∈ Ops.checkedFunctions docs f num → ∃ g' ∈ Ops.checkedFunctions docs f num, g'.names = g.names ∧ FnRel Eq slack g'.fn g.fn :=
    fun hm => ⟨g, hm, rfl, FnRel.refl _⟩
  rcases hg with rfl | rfl | rfl | rfl | rfl | rfl | rfl | rfl | rfl | rfl | rfl | rfl | hg
  · exact ⟨Ops.checkedSum num, by simp [Ops.checkedFunctions], rfl, sum_sim (consistent_fold h.add)⟩
  · exact ⟨Ops.checkedAvg num, by simp [Ops.checkedFunctions], rfl, consistent_avg h⟩
  · exact ⟨Ops.checkedProd num, by simp [Ops.checkedFunctions], rfl, sum_sim (consistent_fold h.mul)⟩
  all_goals exact same (by simp [Ops.checkedFunctions, *])

theorem lookup_none {V : Type} {fs : List (Named V)} {s : Str} (h : ∀ n ∈ fs.flatMap Named.names, ¬ CaseVariant n s) :
    lookup hashSame fs s = none := by
  cases hl : lookup hashSame fs s with
  | none => rfl
  | some v =>
    obtain ⟨n, hn, hs⟩ := (lookup_isSome fs s).mp (by rw [hl]; rfl)
    exact absurd (show CaseVariant n s by simpa [CaseVariant, hashSame, hashInput] using hs) (h n hn)

/-- A name of a checked context that is none of the extra ones is a name of an unchecked context. -/
theorem only_checked (docs : Bool) (f : F64 F) (s : Str) (hs : ∀ n ∈ onlyChecked docs, ¬ CaseVariant n s)
    (h : (lookup hashSame (Ops.checkedFunctions docs f num) s).isSome = true) :
    (lookup hashSame (Ops.uncheckedFunctions f num) s).isSome = true := by
  rw [lookup_isSome] at h ⊢
  obtain ⟨n, hn, hk⟩ := h
  refine ⟨n, ?_, hk⟩
  have hv : CaseVariant n s := by simpa [CaseVariant, hashSame, hashInput] using hk
  have hn' : n ∉ onlyChecked docs := fun hm => hs n hm hv
  rw [checkedFunctions_names] at hn
  rw [uncheckedFunctions_names]
  revert hn hn'
  clear hs hk hv
  revert n
  cases docs <;> decide

/-- Changing functions that a text does not name changes nothing. -/
theorem tokenizeLoop_functions (parse : Str → Option N) (c : Ctx N) (g : Str → Option (Fn N)) (prev : Option Str) (ws : List Str)
    (h : ∀ w ∈ ws, (g w).isSome = c.isFunction w) :
    tokenizeLoop parse { c with getFunction := g } prev ws = tokenizeLoop parse c prev ws := by
  have hop : ∀ prev w b, operatorToken parse { c with getFunction := g } prev w b = operatorToken parse c prev w b := fun _ _ _ => rfl
  have hot : ∀ w, otherToken { c with getFunction := g } w = otherToken c w := fun _ => rfl
  have hv : ∀ w, ({ c with getFunction := g } : Ctx N).isVariable w = c.isVariable w := fun _ => rfl
  have hc : ∀ w, ({ c with getFunction := g } : Ctx N).isConstant w = c.isConstant w := fun _ => rfl
  have hb : ∀ w, ({ c with getFunction := g } : Ctx N).isBinary w = c.isBinary w := fun _ => rfl
  have hu : ∀ w, ({ c with getFunction := g } : Ctx N).isUnary w = c.isUnary w := fun _ => rfl
  have hf : ∀ w ∈ ws, ({ c with getFunction := g } : Ctx N).isFunction w = c.isFunction w := h
  clear h
  induction hl : ws.length using Nat.strongRecOn generalizing ws prev with
  | ind n ih =>
    subst hl
    cases ws with
    | nil => simp [tokenizeLoop]
    | cons w rest =>
      have ih' : ∀ prev l, l <:+ rest → tokenizeLoop parse { c with getFunction := g } prev l = tokenizeLoop parse c prev l := fun prev l hl =>
        ih l.length (by have := hl.length_le; simp; omega) prev l (fun x hx => hf x (List.mem_cons_of_mem _ (hl.mem hx))) rfl
      rw [tokenizeLoop.eq_def, tokenizeLoop.eq_def parse c]
      simp only [hv, hc, hb, hu, hop, hot, hf w List.mem_cons_self, ih' _ rest List.suffix_rfl]
      cases parse w with
      | none => rfl
      | some m =>
        cases rest with
        | nil => rfl
        | cons w' rest' => simp only [ih' _ rest' (List.suffix_cons _ _), ih' _ _ List.suffix_rfl]

theorem Res.bind_eq_ok {α β : Type} {x : Res α} {f : α → Res β} {v : β} (h : x.bind f = .ok v) : ∃ u, x = .ok u ∧ f u = .ok v := by
  cases x with
  | ok u => exact ⟨u, rfl, h⟩
  | err _ => cases h
  | panic => cases h

theorem tokenizeLoop_function {parse : Str → Option N} {c : Ctx N} {prev : Option Str} {ws : List Str} {ts : List (Token N)}
    (h : tokenizeLoop parse c prev ws = .ok ts) {s : Str} (hs : .function s ∈ ts) : c.isFunction s = true := by
  have key : ∀ {ts : List (Token N)} {x : Res (List (Token N))} {t : Token N}, (x.bind fun ts => .ok (t :: ts)) = .ok ts → .function s ∈ ts →
      (∀ ts', x = .ok ts' → .function s ∈ ts' → c.isFunction s = true) → (t = .function s → c.isFunction s = true) → c.isFunction s = true := by
    intro ts x t hx hm h1 h2
    obtain ⟨us, hu, hr⟩ := Res.bind_eq_ok hx
    simp only [Res.ok.injEq] at hr
    subst hr
    rcases List.mem_cons.mp hm with h3 | h3
    · exact h2 h3.symm
    · exact h1 us hu h3
  revert key
  fun_induction tokenizeLoop parse c prev ws generalizing ts <;> intro key
  case case1 => cases h; cases hs
  case case2 => cases h
  case case3 _ _ _ _ _ _ _ _ _ ih => exact key h hs (fun ts' h1 h2 => ih h1 h2 key) (by simp)
  case case4 _ _ _ _ _ _ _ ih => exact key h hs (fun ts' h1 h2 => ih h1 h2 key) (by simp)
  case case5 => cases h; simp at hs
  case case6 _ _ _ _ _ ih => exact key h hs (fun ts' h1 h2 => ih h1 h2 key) (by simp)
  case case7 _ _ _ _ _ _ ih => exact key h hs (fun ts' h1 h2 => ih h1 h2 key) (by simp)
  case case8 _ w _ _ _ _ hf ih => exact key h hs (fun ts' h1 h2 => ih h1 h2 key) (by rintro h; cases h; exact hf)
  case case9 prev w rest _ _ _ _ _ ih =>
    obtain ⟨t, ht, hr⟩ := Res.bind_eq_ok h
    refine key hr hs (fun ts' h1 h2 => ih h1 h2 key) ?_
    rintro rfl
    unfold operatorToken at ht
    obtain ⟨b, _, hb⟩ := Res.bind_eq_ok ht
    cases b with
    | true => cases hb
    | false =>
      simp only [Bool.false_eq_true, if_false] at hb
      cases h' : (prev.isNone || (if rest.isEmpty then none else some w).isNone) <;> rw [h'] at hb <;> cases hb
  case case10 _ w _ _ _ _ _ _ t ht ih =>
    refine key h hs (fun ts' h1 h2 => ih h1 h2 key) ?_
    rintro rfl
    unfold otherToken at ht
    split at ht
    · cases ht
    · split at ht
      · cases ht
      · split at ht
        · split at ht
          · split at ht
            · split at ht <;> cases ht
            · cases ht
          · cases ht
        · cases ht
  case case11 _ _ _ _ _ _ _ _ _ ih => exact ih h hs key

theorem OpRel.same (os : List (Op N)) (hos : OnlyValues os) : Pairwise2 (OpRel Eq) os os := by
  induction os with
  | nil => exact .nil
  | cons o os ih =>
    refine .cons ?_ (ih fun o' ho' => hos o' (List.mem_cons_of_mem _ ho'))
    rcases hos o List.mem_cons_self with ⟨n, v, rfl⟩ | ⟨n, v, rfl⟩
    · exact .setVariable n rfl
    · exact .addConstant n rfl

theorem Both.refl {α : Type} (x : Option α) : Both Eq x x := by
  cases x with
  | none => exact .none
  | some x => exact .some rfl

/-- C76. A checked and an unchecked context over the same number type, with the same variables and constants, give the same outcome for every
text that uses none of the functions only the first has, up to what the number type's checked operations refuse (`slack`). -/
theorem C76_checked_unchecked (K : Keys) (debug docs : Bool) (f : F64 F) (h : Consistent slack num) (config : Config)
    (c : Context N) (hc : Context.checked K debug docs f num config = .ok c)
    (d : Context N) (hd : Context.unchecked K debug f num config = .ok d)
    (os : List (Op N)) (hos : OnlyValues os) (parse : Str → Option N) (splitter : Str → List Str) (s : Str)
    (hs : ∀ w ∈ splitter s, ∀ n ∈ onlyChecked docs, ¬ CaseVariant n w) :
    Lift Eq slack (eval parse splitter ((c.runAll K debug os).view K) s) (eval parse splitter ((d.runAll K debug os).view K) s) := by
  obtain ⟨pi, e, h1, h2, h3⟩ := checked_parts hc
  obtain ⟨pi', e', h4, h5, h6⟩ := unchecked_parts hd
  rw [h1] at h4; rw [h2] at h5; cases h4; cases h5
  have hval := build_valRel (R := Eq) K rfl rfl h3 h6
  obtain ⟨_, _, hcv⟩ := checked_inv hc
  obtain ⟨_, _, hdv⟩ := unchecked_inv hd
  obtain ⟨c1, c2, c3, c4⟩ := view_values K debug hos hcv
  obtain ⟨d1, d2, d3, d4⟩ := view_values K debug hos hdv
  have hval' := hval.runAll K (OpRel.same os hos) (.inl rfl : SameChecks debug debug os)
  generalize hC : (c.runAll K debug os).view K = C at *
  generalize hD : (d.runAll K debug os).view K = D at *
  have hV : ∀ s, Both Eq (C.getVariable s) (D.getVariable s) := fun s => by rw [← hC, ← hD]; exact hval'.variables.get _ _
  have hK : ∀ s, Both Eq (C.getConstant s) (D.getConstant s) := fun s => by rw [← hC, ← hD]; exact hval'.constants.get _ _
  have hfun : ∀ s v, D.getFunction s = some v → ∃ u, C.getFunction s = some u ∧ FnRel Eq slack u v := by
    intro s v hv
    rw [d2] at hv; rw [c2]
    exact lookup_rel (by rw [checkedFunctions_names]; cases docs <;> decide) (consistent_functions docs f h) s hv
  let g : Str → Option (Fn N) := fun s => if D.isFunction s then C.getFunction s else none
  have hg : ∀ s, Both (FnRel Eq slack) (g s) (D.getFunction s) := by
    intro s
    have h1 : g s = if (D.getFunction s).isSome then C.getFunction s else none := rfl
    have h2 := hfun s
    revert h1 h2
    generalize D.getFunction s = y
    intro h1 h2
    rw [h1]
    cases y with
    | none => exact .none
    | some v =>
      obtain ⟨u, hu, hr⟩ := h2 v rfl
      rw [hu]
      exact .some hr
  have hb : ∀ s, Both (BinRel Eq slack) (C.getBinary s) (D.getBinary s) := fun s => by
    rw [c4, d4]; exact (consistent_binary f h).lookup _ _
  have hu : ∀ s, Both (UnRel Eq slack) (C.getUnary s) (D.getUnary s) := fun s => by
    rw [c3, d3]; exact (consistent_unary f h).lookup _ _
  have hshape : ShapeRel { C with getFunction := g } D :=
    ⟨by rw [d1]; exact c1, fun s => (hV s).isSome, fun s => (hK s).isSome, fun s => (hg s).isSome, fun s => (hb s).isSome, fun s => by
      have := hu s
      show Both _ (C.getUnary s) _
      cases h1 : C.getUnary s <;> cases h2 : D.getUnary s <;> rw [h1, h2] at this <;> cases this
      · exact .none
      · rename_i hr; exact .some hr.1⟩
  have htok : tokenize parse splitter { C with getFunction := g } s = tokenize parse splitter C s := by
    unfold tokenize
    rw [tokenizeLoop_functions]
    intro w hw
    simp only [g]
    cases hD : D.isFunction w with
    | true => rfl
    | false =>
      simp only [Bool.false_eq_true, if_false, Option.isSome_none]
      cases hC : C.isFunction w with
      | false => rfl
      | true =>
        simp only [Ctx.isFunction] at hC hD
        rw [c2] at hC; rw [d2] at hD
        rw [only_checked docs f w (hs w hw) hC] at hD
        cases hD
  have hsim := eval_sim (R := Eq) (slack := slack) hshape (fun w => Both.refl (parse w)) splitter s (fun ts _ =>
    { config := by rw [d1]; exact c1
      variables := fun s _ => hV s
      constants := fun s _ => hK s
      functions := fun s _ => hg s
      unary := fun s _ => hu s
      binary := fun s _ => hb s
      implied := fun _ => hb _ })
  have : eval parse splitter { C with getFunction := g } s = eval parse splitter C s := by
    unfold eval
    rw [htok]
    cases ht : tokenize parse splitter C s with
    | err k => rfl
    | panic => rfl
    | ok ts =>
      simp only [Res.bind_ok]
      refine (evalTokens_congr (c1 := { C with getFunction := g }) (c2 := C) rfl (fun _ => rfl) ts fun t hm => ?_).2
      cases t with
      | function n =>
        rw [← htok] at ht
        unfold tokenize at ht
        split at ht
        · cases ht
        · have := tokenizeLoop_function ht hm
          have hgs : (g n).isSome = true := this
          show g n = C.getFunction n
          have h1 : g n = if D.isFunction n then C.getFunction n else none := rfl
          rw [h1] at hgs ⊢
          cases hb : D.isFunction n with
          | true => rfl
          | false => rw [hb] at hgs; cases hgs
      | _ => trivial
  rw [← this]
  exact hsim
end

section
variable {w : Width} {toF64 : SInt w → F} {fromF64 : F → Option (SInt w)}

theorem arith_consistent (debug : Bool) (x : Int) : Lift Eq .failures (Res.ofOption (SInt.of? x : Option (SInt w)) .overflow) (SInt.arith debug x) := by
  unfold SInt.arith
  cases (SInt.of? x : Option (SInt w)) with
  | none => exact .anyErr _ _ rfl
  | some y => exact .ok rfl

theorem division_consistent (g : Int → Int → Int) (x y : SInt w) :
    Lift Eq .failures (Res.ofOption (SInt.checkedDivision g x y) .overflow) (SInt.division g x y) := by
  unfold SInt.division
  cases SInt.checkedDivision g x y with
  | none => exact .anyErr _ _ rfl
  | some y => exact .ok rfl

/-- Integers: what does not overflow is the same without checks. -/
theorem SInt.consistent (debug : Bool) : Consistent .failures (SInt.num w debug toF64 fromF64) where
  add x y := arith_consistent debug _
  sub x y := arith_consistent debug _
  mul x y := arith_consistent debug _
  div x y _ := division_consistent _ x y
  rem x y _ := division_consistent _ x y
  neg x := arith_consistent debug _
  count n k hn h := by
    obtain ⟨h1, -⟩ := of?_some h
    have : k.1 ≠ 0 := by omega
    simpa [SInt.num] using this

/-- Floats: nothing but division by zero is refused. A positive number of arguments must not be zero as a float. -/
theorem F64.consistent (f : F64 F) (g : FloatNum F) (h : ∀ n, 0 < n → f.isZero (g.ofNat n) = false) : Consistent .none (f.num g) where
  add x y := .ok rfl
  sub x y := .ok rfl
  mul x y := .ok rfl
  div x y hz := by
    have hz : f.isZero y = false := hz
    simp only [F64.num, hz, Bool.false_eq_true, if_false]
    exact .ok rfl
  rem x y hz := by
    have hz : f.isZero y = false := hz
    simp only [F64.num, hz, Bool.false_eq_true, if_false]
    exact .ok rfl
  neg x := .ok rfl
  count n k hn hk := by
    simp only [F64.num, Option.some.injEq] at hk
    subst hk
    exact h n hn

/-- C76 for `f64`: the checked context and the unchecked one do the same. -/
theorem C76_floats (K : Keys) (debug docs : Bool) (f : F64 F) (g : FloatNum F) (h : ∀ n, 0 < n → f.isZero (g.ofNat n) = false)
    (config : Config) (c : Context F) (hc : Context.checked K debug docs f (f.num g) config = .ok c)
    (d : Context F) (hd : Context.unchecked K debug f (f.num g) config = .ok d)
    (os : List (Op F)) (hos : OnlyValues os) (parse : Str → Option F) (splitter : Str → List Str) (s : Str)
    (hs : ∀ w ∈ splitter s, ∀ n ∈ onlyChecked docs, ¬ CaseVariant n w) :
    eval parse splitter ((c.runAll K debug os).view K) s = eval parse splitter ((d.runAll K debug os).view K) s := by
  have := C76_checked_unchecked K debug docs f (F64.consistent f g h) config c hc d hd os hos parse splitter s hs
  revert this
  generalize eval parse splitter ((c.runAll K debug os).view K) s = x
  generalize eval parse splitter ((d.runAll K debug os).view K) s = y
  intro this
  cases this with
  | ok h => rw [h]
  | err k => rfl
  | panic => rfl
  | anyErr _ _ h => cases h
  | anyPanic _ h => exact absurd rfl h

/-- C76 for integers: a text that a checked context evaluates has the same value in an unchecked context, in debug and in release builds. -/
theorem C76_integers (K : Keys) (debug docs : Bool) (f : F64 F) (config : Config)
    (c : Context (SInt w)) (hc : Context.checked K debug docs f (SInt.num w debug toF64 fromF64) config = .ok c)
    (d : Context (SInt w)) (hd : Context.unchecked K debug f (SInt.num w debug toF64 fromF64) config = .ok d)
    (os : List (Op (SInt w))) (hos : OnlyValues os) (splitter : Str → List Str) (s : Str)
    (hs : ∀ x ∈ splitter s, ∀ n ∈ onlyChecked docs, ¬ CaseVariant n x) (v : SInt w)
    (hv : eval (SInt.parse w) splitter ((c.runAll K debug os).view K) s = .ok v) :
    eval (SInt.parse w) splitter ((d.runAll K debug os).view K) s = .ok v := by
  have := C76_checked_unchecked K debug docs f (SInt.consistent debug) config c hc d hd os hos (SInt.parse w) splitter s hs
  rw [hv] at this
  obtain ⟨v', h1, h2⟩ := this.of_ok
  rw [h1, h2]

/-- `sum(1, 2) * 3 - avg(8, 4)`. -/
example : ∃ c d, Context.checked Demo.keys true true Demo.float (Demo.int i32 true) Config.new = .ok c ∧
    Context.unchecked Demo.keys true Demo.float (Demo.int i32 true) Config.new = .ok d ∧
    (∀ x ∈ split defaultRules (str "sum(1, 2) * 3 - avg(8, 4)"), ∀ n ∈ onlyChecked true, ¬ CaseVariant n x) ∧
    eval (SInt.parse i32) (split defaultRules) (c.view Demo.keys) (str "sum(1, 2) * 3 - avg(8, 4)") = .ok (Demo.i32 3) ∧
    eval (SInt.parse i32) (split defaultRules) (d.view Demo.keys) (str "sum(1, 2) * 3 - avg(8, 4)") = .ok (Demo.i32 3) := by
  obtain ⟨c, hc, hv⟩ := checked_build Demo.keys true true Demo.float (Demo.int i32 true) Config.new (Demo.i32 3) (Demo.i32 2)
    (by decide) (by decide)
  obtain ⟨d, hd, hv'⟩ := unchecked_build Demo.keys true Demo.float (Demo.int i32 true) Config.new (Demo.i32 3) (Demo.i32 2)
    (by decide) (by decide)
  have h1 : eval (SInt.parse i32) (split defaultRules) (c.view Demo.keys) (str "sum(1, 2) * 3 - avg(8, 4)") = .ok (Demo.i32 3) := by
    rw [hv]; decide +kernel
  have h2 : ∀ x ∈ split defaultRules (str "sum(1, 2) * 3 - avg(8, 4)"), ∀ n ∈ onlyChecked true, ¬ CaseVariant n x := by decide +kernel
  exact ⟨c, d, hc, hd, h2, h1, C76_integers Demo.keys true true Demo.float Config.new c hc d hd [] (fun _ h => by cases h) _ _ h2 _ h1⟩

/-! ## C77: debug and release builds -/

theorem arith_release (x : Int) : Lift Eq .panics (SInt.arith true x : Res (SInt w)) (SInt.arith false x) := by
  unfold SInt.arith
  cases (SInt.of? x : Option (SInt w)) with
  | none => exact .anyPanic _ (by decide)
  | some y => exact .ok rfl

theorem release_numRel : NumRel Eq .panics (SInt.num w true toF64 fromF64) (SInt.num w false toF64 fromF64) where
  zero := rfl
  one := rfl
  isZero := by rintro x _ rfl; rfl
  isOne := by rintro x _ rfl; rfl
  lt := by rintro x _ y _ rfl rfl; rfl
  ge := by rintro x _ y _ rfl rfl; rfl
  toF64 := by rintro x _ rfl; rfl
  fromF64 v := Lift.refl _
  fromUsize n := Lift.refl _
  fuel := by rintro x _ rfl; rfl

theorem release_checkedRel : CheckedRel Eq .panics (SInt.num w true toF64 fromF64) (SInt.num w false toF64 fromF64) where
  add := by rintro x _ y _ rfl rfl; exact Lift.refl _
  sub := by rintro x _ y _ rfl rfl; exact Lift.refl _
  mul := by rintro x _ y _ rfl rfl; exact Lift.refl _
  div := by rintro x _ y _ rfl rfl; exact Lift.refl _
  rem := by rintro x _ y _ rfl rfl; exact Lift.refl _
  neg := by rintro x _ rfl; exact Lift.refl _

theorem release_plainRel : PlainRel Eq .panics (SInt.num w true toF64 fromF64) (SInt.num w false toF64 fromF64) where
  add := by rintro x _ y _ rfl rfl; exact arith_release _
  mul := by rintro x _ y _ rfl rfl; exact arith_release _
  div := by rintro x _ y _ rfl rfl; exact Lift.refl _
  rem := by rintro x _ y _ rfl rfl; exact Lift.refl _
  neg := by rintro x _ rfl; exact arith_release _

theorem release_minusRel : MinusRel Eq .panics (SInt.num w true toF64 fromF64) (SInt.num w false toF64 fromF64) := by
  rintro x _ y _ rfl rfl; exact arith_release _

theorem Lift.sameUnlessPanic {α : Type} {x y : Res α} (h : Lift Eq .panics x y) : SameUnlessPanic x y := by
  intro hx
  cases h with
  | ok h => rw [h]
  | err k => rfl
  | panic => rfl
  | anyErr _ _ h => cases h
  | anyPanic _ h => exact absurd rfl hx

/-- C77. What a debug build evaluates without panicking, a release build evaluates to the same, over a checked context. -/
theorem C77_release_checked (K : Keys) (docs : Bool) (f : F64 F) (config : Config)
    (c : Context (SInt w)) (hc : Context.checked K true docs f (SInt.num w true toF64 fromF64) config = .ok c)
    (d : Context (SInt w)) (hd : Context.checked K false docs f (SInt.num w false toF64 fromF64) config = .ok d)
    (os : List (Op (SInt w))) (hos : OnlyValues os) (hnames : ∀ o ∈ os, ValidName o.name) (splitter : Str → List Str) (s : Str) :
    SameUnlessPanic (eval (SInt.parse w) splitter ((c.runAll K true os).view K) s)
      (eval (SInt.parse w) splitter ((d.runAll K false os).view K) s) := by
  obtain ⟨pi, e, h1, h2, h3⟩ := checked_parts hc
  obtain ⟨pi', e', h4, h5, h6⟩ := checked_parts hd
  have hn := release_numRel (toF64 := toF64) (fromF64 := fromF64)
  have hk := release_checkedRel (toF64 := toF64) (fromF64 := fromF64)
  have hval := build_valRel (R := Eq) K (fromF64_rel hn h1 h4) (fromF64_rel hn h2 h5) h3 h6
  obtain ⟨_, _, hcv⟩ := checked_inv hc
  obtain ⟨_, _, hdv⟩ := checked_inv hd
  have hu := checkedUnary_sim (f := f) hn hk release_plainRel release_minusRel
  have hsh := built_shapeRel hcv hdv hval ((checkedBinary_sim hn hk).weaken fun _ _ _ => trivial) (hu.weaken fun _ _ h => h.1)
      ((checkedFunctions_sim docs hn hk).weaken fun _ _ _ => trivial) (OpRel.same os hos) (.inr hnames : SameChecks true false os)
  exact (eval_sim hsh (fun t => Both.refl _) splitter s fun ts _ =>
    built_ctxRel hcv hdv hval (bb := []) (bu := []) (checkedBinary_sim hn hk).toExcept hu.toExcept (checkedFunctions_sim docs hn hk)
      (OpRel.same os hos) (.inr hnames) (by simp) ts ⟨by simp, by simp⟩).sameUnlessPanic

/-- C77 over an unchecked context. -/
theorem C77_release_unchecked (K : Keys) (f : F64 F) (config : Config)
    (c : Context (SInt w)) (hc : Context.unchecked K true f (SInt.num w true toF64 fromF64) config = .ok c)
    (d : Context (SInt w)) (hd : Context.unchecked K false f (SInt.num w false toF64 fromF64) config = .ok d)
    (os : List (Op (SInt w))) (hos : OnlyValues os) (hnames : ∀ o ∈ os, ValidName o.name) (splitter : Str → List Str) (s : Str) :
    SameUnlessPanic (eval (SInt.parse w) splitter ((c.runAll K true os).view K) s)
      (eval (SInt.parse w) splitter ((d.runAll K false os).view K) s) := by
  obtain ⟨pi, e, h1, h2, h3⟩ := unchecked_parts hc
  obtain ⟨pi', e', h4, h5, h6⟩ := unchecked_parts hd
  have hn := release_numRel (toF64 := toF64) (fromF64 := fromF64)
  have hk := release_plainRel (toF64 := toF64) (fromF64 := fromF64)
  have hm := release_minusRel (toF64 := toF64) (fromF64 := fromF64)
  have hval := build_valRel (R := Eq) K (fromF64_rel hn h1 h4) (fromF64_rel hn h2 h5) h3 h6
  obtain ⟨_, _, hcv⟩ := unchecked_inv hc
  obtain ⟨_, _, hdv⟩ := unchecked_inv hd
  have hu := uncheckedUnary_sim (f := f) hn hk hm
  have hsh := built_shapeRel hcv hdv hval ((uncheckedBinary_sim hn hk hm).weaken fun _ _ _ => trivial) (hu.weaken fun _ _ h => h.1)
      ((uncheckedFunctions_sim hn hk).weaken fun _ _ _ => trivial) (OpRel.same os hos) (.inr hnames : SameChecks true false os)
  exact (eval_sim hsh (fun t => Both.refl _) splitter s fun ts _ =>
    built_ctxRel hcv hdv hval (bb := []) (bu := []) (uncheckedBinary_sim hn hk hm).toExcept hu.toExcept (uncheckedFunctions_sim hn hk)
      (OpRel.same os hos) (.inr hnames) (by simp) ts ⟨by simp, by simp⟩).sameUnlessPanic

/-- `7! / 6` over the checked context of both builds; and `20!`, where the debug build panics. -/
example : ∃ c d, Context.checked Demo.keys true true Demo.float (Demo.int i32 true) Config.new = .ok c ∧
    Context.checked Demo.keys false true Demo.float (Demo.int i32 false) Config.new = .ok d ∧
    eval (SInt.parse i32) (split defaultRules) (c.view Demo.keys) (str "7! / 6") = .ok (Demo.i32 840) ∧
    eval (SInt.parse i32) (split defaultRules) (d.view Demo.keys) (str "7! / 6") = .ok (Demo.i32 840) ∧
    eval (SInt.parse i32) (split defaultRules) (c.view Demo.keys) (str "20!") = .panic ∧
    eval (SInt.parse i32) (split defaultRules) (d.view Demo.keys) (str "20!") = .ok (Demo.i32 (-2102132736)) := by
  obtain ⟨c, hc, hv⟩ := checked_build Demo.keys true true Demo.float (Demo.int i32 true) Config.new (Demo.i32 3) (Demo.i32 2)
    (by decide) (by decide)
  obtain ⟨d, hd, hv'⟩ := checked_build Demo.keys false true Demo.float (Demo.int i32 false) Config.new (Demo.i32 3) (Demo.i32 2)
    (by decide) (by decide)
  have h1 : eval (SInt.parse i32) (split defaultRules) (c.view Demo.keys) (str "7! / 6") = .ok (Demo.i32 840) := by
    rw [hv]; decide +kernel
  have h2 := C77_release_checked Demo.keys true Demo.float Config.new c hc d hd [] (fun _ h => by cases h) (fun _ h => by cases h)
    (split defaultRules) (str "7! / 6")
  simp only [Context.runAll] at h2
  rw [h1] at h2
  exact ⟨c, d, hc, hd, h1, h2 (by simp), by rw [hv]; decide +kernel, by rw [hv']; decide +kernel⟩
end

end Prexel
