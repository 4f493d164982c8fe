import Verif.Lemmas.Aggregates
import Verif.Props.Complex
import Verif.Props.Integer
import Verif.Props.DoubleFunctions
import Verif.Props.Json
import Verif.Props.DecimalFunctions
/-!
# C151: sums, products and averages of every number type
-/

namespace Prexel
variable {N D F T : Type}

theorem aggregate_sum {h : N → N → Res N} (x : N) (xs : List N) :
    Ops.orArgumentCount (Ops.foldArgs h none (x :: xs)) = foldRes h (.ok x) xs := by
  rw [foldArgs_first, Ops.orArgumentCount]
  cases foldRes h (.ok x) xs <;> rfl

/-- Checked numbers (`with_config_checked`): each of the three functions is the expression written out, with the same value or the same error. -/
theorem C151_checked (K : Keys) (debug docs : Bool) (f : F64 F) (num : Num N F) (config : Config) (c : Context N)
    (hc : Context.checked K debug docs f num config = .ok c) (os : List (Op N)) (x : N) (xs : List N) :
    let ev := evalTokens ((c.runAll K debug os).view K)
    ev (callTokens (str "sum") (x :: xs)) = ev (writtenOut "+" x xs) ∧
    ev (callTokens (str "product") (x :: xs)) = ev (writtenOut "*" x xs) ∧
    ∀ n, num.fromUsize (xs.length + 1) = some n → num.isZero n = false →
      ev (callTokens (str "avg") (x :: xs)) = ev (writtenAverage x xs n) := by
  intro ev
  obtain ⟨pi, e, hv⟩ := checked_inv hc
  have hb : ∀ {o g}, lookup hashSame (Ops.checkedBinary f num) o = some g → ((c.runAll K debug os).view K).getBinary o = some g := fun h =>
    (C26_never_replaced K debug c os _).2.2 _ (by rw [hv]; exact h)
  refine ⟨?_, ?_, fun n hn hz => ?_⟩
  · refine (checked_call hc os (g := (Ops.checkedSum num).fn) rfl _).trans ?_
    exact (aggregate_sum x xs).trans (eval_writtenOut _ (g := (Ops.checkedAdd num).fn) (hb rfl) rfl x xs).symm
  · refine (checked_call hc os (g := (Ops.checkedProd num).fn) rfl _).trans ?_
    exact (aggregate_sum x xs).trans (eval_writtenOut _ (g := (Ops.checkedMul num).fn) (hb rfl) rfl x xs).symm
  · refine (checked_call hc os (g := (Ops.checkedAvg num).fn) rfl _).trans ?_
    refine .trans ?_ (eval_writtenAverage _ (g := (Ops.checkedAdd num).fn) (q := (Ops.checkedDiv num).fn) (hb rfl) rfl (hb rfl) x xs n).symm
    simp only [Ops.checkedAvg, foldArgs_first, List.length_cons, hn, Ops.checkedDiv, hz, Ops.checkedAdd]
    cases foldRes (fun x y => Ops.orOverflow (num.checkedAdd x y)) (.ok x) xs <;> rfl

/-- Unchecked numbers (`with_config_unchecked`). -/
theorem C151_unchecked (K : Keys) (debug : Bool) (f : F64 F) (num : Num N F) (config : Config) (c : Context N)
    (hc : Context.unchecked K debug f num config = .ok c) (os : List (Op N)) (x : N) (xs : List N) :
    let ev := evalTokens ((c.runAll K debug os).view K)
    ev (callTokens (str "sum") (x :: xs)) = ev (writtenOut "+" x xs) ∧
    ev (callTokens (str "product") (x :: xs)) = ev (writtenOut "*" x xs) ∧
    ∀ n, num.fromUsize (xs.length + 1) = some n → num.isZero n = false →
      ev (callTokens (str "avg") (x :: xs)) = ev (writtenAverage x xs n) := by
  intro ev
  obtain ⟨pi, e, hv⟩ := unchecked_inv hc
  have hb : ∀ {o g}, lookup hashSame (Ops.uncheckedBinary f num) o = some g → ((c.runAll K debug os).view K).getBinary o = some g := fun h =>
    (C26_never_replaced K debug c os _).2.2 _ (by rw [hv]; exact h)
  refine ⟨?_, ?_, fun n hn hz => ?_⟩
  · refine (unchecked_call hc os (g := (Ops.uncheckedSum num).fn) rfl _).trans ?_
    exact (aggregate_sum x xs).trans (eval_writtenOut _ (g := (Ops.uncheckedAdd num).fn) (hb rfl) rfl x xs).symm
  · refine (unchecked_call hc os (g := (Ops.uncheckedProd num).fn) rfl _).trans ?_
    exact (aggregate_sum x xs).trans (eval_writtenOut _ (g := (Ops.uncheckedMul num).fn) (hb rfl) rfl x xs).symm
  · refine (unchecked_call hc os (g := (Ops.uncheckedAvg num).fn) rfl _).trans ?_
    refine .trans ?_ (eval_writtenAverage _ (g := (Ops.uncheckedAdd num).fn) (q := (Ops.uncheckedDiv num).fn) (hb rfl) rfl (hb rfl) x xs n).symm
    simp only [Ops.uncheckedAvg, foldArgs_first, List.length_cons, hn, Ops.uncheckedDiv, hz, Ops.uncheckedAdd]
    cases foldRes num.add (.ok x) xs <;> rfl

/-- Complex numbers. -/
theorem C151_complex (K : Keys) (debug : Bool) (k : Cx T) (config : Config) (c : Context (Cplx T))
    (hc : k.context K debug config = .ok c) (os : List (Op (Cplx T))) (x : Cplx T) (xs : List (Cplx T)) :
    let ev := evalTokens ((c.runAll K debug os).view K)
    ev (callTokens (str "sum") (x :: xs)) = ev (writtenOut "+" x xs) ∧
    ev (callTokens (str "product") (x :: xs)) = ev (writtenOut "*" x xs) ∧
    ∀ n, k.fromUsize (xs.length + 1) = some n → k.num.isZero ⟨n, k.zero⟩ = false →
      ev (callTokens (str "avg") (x :: xs)) = ev (writtenAverage x xs ⟨n, k.zero⟩) := by
  intro ev
  obtain ⟨pi, e, -, -, hv⟩ := complex_inv hc
  have hb : ∀ {o g}, lookup hashSame k.binaryOps o = some g → ((c.runAll K debug os).view K).getBinary o = some g := fun h =>
    (C26_never_replaced K debug c os _).2.2 _ (by rw [hv]; exact h)
  refine ⟨?_, ?_, fun n hn hz => ?_⟩
  · refine (complex_call hc os (g := (Ops.uncheckedSum k.num).fn) rfl _).trans ?_
    exact (aggregate_sum x xs).trans (eval_writtenOut _ (g := (Ops.uncheckedAdd k.num).fn) (hb rfl) rfl x xs).symm
  · refine (complex_call hc os (g := (Ops.uncheckedProd k.num).fn) rfl _).trans ?_
    exact (aggregate_sum x xs).trans (eval_writtenOut _ (g := (Ops.uncheckedMul k.num).fn) (hb rfl) rfl x xs).symm
  · refine (complex_call hc os (g := (Ops.uncheckedAvg k.num).fn) rfl _).trans ?_
    refine .trans ?_ (eval_writtenAverage _ (g := (Ops.uncheckedAdd k.num).fn) (q := (Ops.uncheckedDiv k.num).fn) (hb rfl) rfl (hb rfl) x xs _).symm
    have hn' : k.num.fromUsize (xs.length + 1) = some ⟨n, k.zero⟩ := by
      show (k.fromUsize (xs.length + 1)).map k.real = _
      rw [hn]; rfl
    simp only [Ops.uncheckedAvg, foldArgs_first, List.length_cons, hn', Ops.uncheckedDiv, hz, Ops.uncheckedAdd]
    cases foldRes k.num.add (.ok x) xs <;> rfl

theorem foldRes_unwrap (h : N → N → Res N) (xs : List N) : ∀ r : Res N,
    foldRes (fun x y => (h x y).unwrapNone) r.unwrapNone xs = (foldRes h r xs).unwrapNone := by
  induction xs with
  | nil => intro r; rfl
  | cons y ys ih =>
    intro r
    rw [foldRes, foldRes, List.foldl_cons, List.foldl_cons, ← foldRes, ← foldRes, ← ih]
    congr 1
    cases r <;> rfl

theorem unwrap_spec (r : Res N) : (∀ v, r.unwrapNone = .ok v ↔ r = .ok v) ∧ (r.unwrapNone = .panic ↔ ∀ v, r ≠ .ok v) := by
  cases r <;> simp [Res.unwrapNone]

section
variable {d : Dec D F}

/-- Decimals: where the expression written out has a value, the function has the same; where it is refused, the function panics. -/
theorem C151_decimal (K : Keys) (debug : Bool) (f : F64 F) (config : Config) (c : Context D)
    (hc : d.context K debug f config = .ok c) (os : List (Op D)) (x : D) (xs : List D) :
    let ev := evalTokens ((c.runAll K debug os).view K)
    ((∀ v, ev (callTokens (str "sum") (x :: xs)) = .ok v ↔ ev (writtenOut "+" x xs) = .ok v) ∧
      (ev (callTokens (str "sum") (x :: xs)) = .panic ↔ ∀ v, ev (writtenOut "+" x xs) ≠ .ok v)) ∧
    ((∀ v, ev (callTokens (str "product") (x :: xs)) = .ok v ↔ ev (writtenOut "*" x xs) = .ok v) ∧
      (ev (callTokens (str "product") (x :: xs)) = .panic ↔ ∀ v, ev (writtenOut "*" x xs) ≠ .ok v)) ∧
    ((∀ v, ev (callTokens (str "avg") (x :: xs)) = .ok v ↔ ev (writtenAverage x xs (d.nat (xs.length + 1))) = .ok v) ∧
      (ev (callTokens (str "avg") (x :: xs)) = .panic ↔ ∀ v, ev (writtenAverage x xs (d.nat (xs.length + 1))) ≠ .ok v)) := by
  intro ev
  have hb : ∀ {o g}, lookup hashSame d.binaryOps o = some g → ((c.runAll K debug os).view K).getBinary o = some g := fun h =>
    (C26_never_replaced K debug c os _).2.2 _ (by rw [decimal_inv hc]; exact h)
  have key : ∀ (h : D → D → Res D),
      foldRes (fun x y => (h x y).unwrapNone) (.ok x) xs = (foldRes h (.ok x) xs).unwrapNone := fun h => foldRes_unwrap h xs (.ok x)
  refine ⟨?_, ?_, ?_⟩
  · rw [show ev (callTokens (str "sum") (x :: xs)) = _ from (decimal_call hc os (g := d.sumFn.fn) rfl _).trans (aggregate_sum x xs),
      show ev (writtenOut "+" x xs) = _ from eval_writtenOut _ (g := d.addOp.fn) (hb rfl) rfl x xs,
      show foldRes d.add (.ok x) xs = _ from key d.cadd]
    exact unwrap_spec _
  · rw [show ev (callTokens (str "product") (x :: xs)) = _ from (decimal_call hc os (g := d.prodFn.fn) rfl _).trans (aggregate_sum x xs),
      show ev (writtenOut "*" x xs) = _ from eval_writtenOut _ (g := d.mulOp.fn) (hb rfl) rfl x xs,
      show foldRes d.mul (.ok x) xs = _ from key d.cmul]
    exact unwrap_spec _
  · have ha : ev (callTokens (str "avg") (x :: xs)) = (foldRes d.cadd (.ok x) xs).unwrapNone.bind fun s => d.div s (d.nat (xs.length + 1)) := by
      refine (decimal_call hc os (g := d.avgFn.fn) rfl _).trans ?_
      rw [← key d.cadd]
      simp only [Dec.avgFn, foldArgs_first, List.length_cons]
      rw [show foldRes d.add (.ok x) xs = foldRes (fun x y => (d.cadd x y).unwrapNone) (.ok x) xs from rfl]
      cases foldRes (fun x y => (d.cadd x y).unwrapNone) (.ok x) xs <;> rfl
    rw [ha, show ev (writtenAverage x xs (d.nat (xs.length + 1))) = _ from
      eval_writtenAverage _ (g := d.addOp.fn) (q := d.divOp.fn) (hb rfl) rfl (hb rfl) x xs _]
    rw [show (foldRes d.cadd (.ok x) xs).unwrapNone.bind (fun s => d.div s (d.nat (xs.length + 1))) =
      ((foldRes d.addOp.fn.call (.ok x) xs).bind fun s => d.divOp.fn.call s (d.nat (xs.length + 1))).unwrapNone by
        show (foldRes d.cadd (.ok x) xs).unwrapNone.bind _ = ((foldRes d.cadd (.ok x) xs).bind _).unwrapNone
        cases foldRes d.cadd (.ok x) xs <;> rfl]
    exact unwrap_spec _

theorem foldRes_sum (L : d.Laws) (xs : List D) : ∀ x, (∀ q ∈ partialSums (L.val x) (xs.map L.val), Representable q) →
    ∃ v, foldRes d.cadd (.ok x) xs = .ok v ∧ L.val v = L.val x + (xs.map L.val).sum := by
  induction xs with
  | nil => intro x _; exact ⟨x, rfl, by simp⟩
  | cons y ys ih =>
    intro x h
    simp only [List.map_cons, partialSums, List.mem_cons, forall_eq_or_imp] at h
    have h2 : Representable (L.val x + L.val y) := by
      cases ys <;> simp [partialSums] at h <;> tauto
    obtain ⟨z, hz, hv⟩ := L.cadd h2
    obtain ⟨v, h3, h4⟩ := ih z (by rw [hv]; exact h.2)
    refine ⟨v, ?_, by rw [h4, hv]; simp [add_assoc]⟩
    rw [foldRes, List.foldl_cons, ← foldRes]
    show foldRes d.cadd (d.cadd x y) ys = _
    rw [hz]; exact h3

theorem foldRes_product (L : d.Laws) (xs : List D) : ∀ x, (∀ q ∈ partialProducts (L.val x) (xs.map L.val), Representable q) →
    ∃ v, foldRes d.cmul (.ok x) xs = .ok v ∧ L.val v = L.val x * (xs.map L.val).prod := by
  induction xs with
  | nil => intro x _; exact ⟨x, rfl, by simp⟩
  | cons y ys ih =>
    intro x h
    simp only [List.map_cons, partialProducts, List.mem_cons, forall_eq_or_imp] at h
    have h2 : Representable (L.val x * L.val y) := by
      cases ys <;> simp [partialProducts] at h <;> tauto
    obtain ⟨z, hz, hv⟩ := L.cmul h2
    obtain ⟨v, h3, h4⟩ := ih z (by rw [hv]; exact h.2)
    refine ⟨v, ?_, by rw [h4, hv]; simp [mul_assoc]⟩
    rw [foldRes, List.foldl_cons, ← foldRes]
    show foldRes d.cmul (d.cmul x y) ys = _
    rw [hz]; exact h3

/-- Decimals: as long as the sums of all beginnings are decimals, the sum is exact and the average is the exact one, rounded to a neighbouring decimal if it is
none; the product is exact as long as those of all beginnings are decimals. -/
theorem C151_exact (K : Keys) (debug : Bool) (L : d.Laws) (f : F64 F) (config : Config) (c : Context D)
    (hc : d.context K debug f config = .ok c) (os : List (Op D)) (x : D) (xs : List D) :
    let ev := evalTokens ((c.runAll K debug os).view K)
    ((∀ q ∈ partialSums (L.val x) (xs.map L.val), Representable q) →
      (∃ v, ev (callTokens (str "sum") (x :: xs)) = .ok v ∧ L.val v = ((x :: xs).map L.val).sum) ∧
      (xs.length + 1 < 2 ^ 96 → ∃ v, ev (callTokens (str "avg") (x :: xs)) = .ok v ∧
        Rounded (L.val v) (((x :: xs).map L.val).sum / ((x :: xs).length : ℚ)))) ∧
    ((∀ q ∈ partialProducts (L.val x) (xs.map L.val), Representable q) →
      ∃ v, ev (callTokens (str "product") (x :: xs)) = .ok v ∧ L.val v = ((x :: xs).map L.val).prod) := by
  intro ev
  have hb : ∀ {o g}, lookup hashSame d.binaryOps o = some g → ((c.runAll K debug os).view K).getBinary o = some g := fun h =>
    (C26_never_replaced K debug c os _).2.2 _ (by rw [decimal_inv hc]; exact h)
  obtain ⟨hs, hp, ha⟩ := C151_decimal K debug f config c hc os x xs
  refine ⟨fun h => ?_, fun h => ?_⟩
  · obtain ⟨s, h1, h2⟩ := foldRes_sum L xs x h
    have h2' : L.val s = ((x :: xs).map L.val).sum := by rw [h2]; simp
    refine ⟨⟨s, (hs.1 s).2 ?_, h2'⟩, fun hl => ?_⟩
    · exact (eval_writtenOut _ (g := d.addOp.fn) (hb rfl) rfl x xs).trans h1
    · have hn : L.val (d.nat (xs.length + 1)) = ((xs.length + 1 : ℕ) : ℚ) := by rw [L.nat _ hl]; push_cast; rfl
      have hpos : (0 : ℚ) < ((xs.length + 1 : ℕ) : ℚ) := by positivity
      obtain ⟨z, hz, hv⟩ := L.div s (d.nat (xs.length + 1)) (by rw [hn]; exact hpos.ne') (by
        rw [hn]
        refine Bounded.div hpos ((representable_bounded (L.range s)).mono ?_)
        have : (0 : ℚ) ≤ maxDecimal := by unfold maxDecimal; norm_num
        have h1 : (1 : ℚ) ≤ ((xs.length + 1 : ℕ) : ℚ) := by exact_mod_cast Nat.le_add_left 1 xs.length
        nlinarith)
      refine ⟨z, (ha.1 z).2 ?_, by rw [← h2']; rw [hn] at hv; exact hv⟩
      refine (eval_writtenAverage _ (g := d.addOp.fn) (q := d.divOp.fn) (hb rfl) rfl (hb rfl) x xs _).trans ?_
      rw [show foldRes d.addOp.fn.call (.ok x) xs = _ from h1]
      show d.cdiv s (d.nat (xs.length + 1)) = _
      rw [Dec.cdiv, hz]; rfl
  · obtain ⟨s, h1, h2⟩ := foldRes_product L xs x h
    exact ⟨s, (hp.1 s).2 ((eval_writtenOut _ (g := d.mulOp.fn) (hb rfl) rfl x xs).trans h1), by rw [h2]; simp⟩

end

section
open B64

theorem foldRes_doubles {num : Num B64 B64} (hadd : num.add = fun x y => .ok (B64.add x y)) (xs : List B64) : ∀ x, x.isFin → (∀ y ∈ xs, y.isFin) →
    (∀ q ∈ partialSums x.val (xs.map B64.val), IsDouble q) →
    ∃ v, foldRes num.add (.ok x) xs = .ok v ∧ v.isFin ∧ v.val = x.val + (xs.map B64.val).sum := by
  induction xs with
  | nil => intro x hx _ _; exact ⟨x, rfl, hx, by simp⟩
  | cons y ys ih =>
    intro x hx hy h
    simp only [List.map_cons, partialSums, List.mem_cons, forall_eq_or_imp] at h hy
    have h2 : IsDouble (x.val + y.val) := by
      cases ys <;> simp [partialSums] at h <;> tauto
    obtain ⟨h3, h4⟩ := of_double (x.sign && y.sign) h2
    rw [← add_fin hx hy.1] at h3 h4
    obtain ⟨v, h5, h6, h7⟩ := ih (B64.add x y) h3 hy.2 (by rw [h4]; exact h.2)
    refine ⟨v, ?_, h6, by rw [h7, h4]; simp [add_assoc]⟩
    rw [foldRes, List.foldl_cons, ← foldRes]
    show foldRes num.add (num.add x y) ys = _
    rw [hadd] at h5 ⊢
    exact h5

/-- Floats: the average is the sum written out, divided by the number of the arguments; as long as the sums of all beginnings are doubles (for example
whole numbers below 2^53), it is the exact average, rounded once. -/
theorem C151_double (K : Keys) (debug : Bool) (lib : Libm) (draw : B64) (config : Config) (c : Context B64)
    (hc : Context.unchecked K debug (f64 lib draw) ((f64 lib draw).num B64.num) config = .ok c) (os : List (Op B64)) (x : B64) (xs : List B64)
    (hl : xs.length < 2 ^ 53) :
    let ev := evalTokens ((c.runAll K debug os).view K)
    ∃ n : B64, n.isFin ∧ n.val = ((x :: xs).length : ℚ) ∧ ev (callTokens (str "avg") (x :: xs)) = ev (writtenAverage x xs n) ∧
      ((∀ y ∈ x :: xs, y.isFin) → (∀ q ∈ partialSums x.val (xs.map B64.val), IsDouble q) →
        (∃ v, ev (callTokens (str "sum") (x :: xs)) = .ok v ∧ v.isFin ∧ v.val = ((x :: xs).map B64.val).sum) ∧
        ∃ v, ev (callTokens (str "avg") (x :: xs)) = .ok v ∧ RoundedTo (((x :: xs).map B64.val).sum / ((x :: xs).length : ℚ)) v) := by
  intro ev
  obtain ⟨hs, -, ha⟩ := C151_unchecked K debug (f64 lib draw) ((f64 lib draw).num B64.num) config c hc os x xs
  have hd : IsDouble ((xs.length + 1 : ℕ) : ℚ) := by
    have := isDouble_int (n := (xs.length + 1 : ℕ)) (by rw [Nat.abs_cast]; exact_mod_cast hl)
    exact_mod_cast this
  obtain ⟨h1, h2⟩ := lit_double hd
  have hpos : (0 : ℚ) < ((xs.length + 1 : ℕ) : ℚ) := by positivity
  have hz : (lit ((xs.length + 1 : ℕ) : ℚ)).isZero = false := by
    generalize lit ((xs.length + 1 : ℕ) : ℚ) = n at h1 h2
    obtain ⟨a, k, hk, rfl⟩ := isFin_fin h1
    show (k == 0) = false
    rw [beq_eq_false_iff_ne]
    intro h0
    rw [(val_zero_iff a k hk).2 h0] at h2
    exact hpos.ne h2
  refine ⟨lit ((xs.length + 1 : ℕ) : ℚ), h1, by rw [h2]; rfl, ha _ rfl hz, fun hf hp => ?_⟩
  obtain ⟨pi, e, hv⟩ := unchecked_inv hc
  have hb : ∀ {o g}, lookup hashSame (Ops.uncheckedBinary (f64 lib draw) ((f64 lib draw).num B64.num)) o = some g →
      ((c.runAll K debug os).view K).getBinary o = some g := fun h => (C26_never_replaced K debug c os _).2.2 _ (by rw [hv]; exact h)
  obtain ⟨v, h5, h6, h7⟩ := foldRes_doubles (num := (f64 lib draw).num B64.num) rfl xs x (hf x (by simp)) (fun y hy => hf y (by simp [hy])) hp
  have h7' : v.val = ((x :: xs).map B64.val).sum := by rw [h7]; simp
  refine ⟨⟨v, ?_, h6, h7'⟩, ?_⟩
  · refine hs.trans ((eval_writtenOut _ (g := (Ops.uncheckedAdd ((f64 lib draw).num B64.num)).fn) (hb rfl) rfl x xs).trans h5)
  · refine ⟨B64.div v (lit ((xs.length + 1 : ℕ) : ℚ)), ?_, ?_⟩
    · refine (ha _ rfl hz).trans ((eval_writtenAverage _ (g := (Ops.uncheckedAdd ((f64 lib draw).num B64.num)).fn) (q := (Ops.uncheckedDiv ((f64 lib draw).num B64.num)).fn) (hb rfl) rfl (hb rfl) x xs _).trans ?_)
      rw [show foldRes (Ops.uncheckedAdd ((f64 lib draw).num B64.num)).fn.call (.ok x) xs = _ from h5]
      show (if (lit ((xs.length + 1 : ℕ) : ℚ)).isZero then _ else _) = _
      rw [hz]; rfl
    · rw [div_fin h6 h1 (by rw [h2]; exact hpos.ne'), h7', h2]
      exact rounded_of _ _

end

/-! ## The hypotheses hold, and the functions are computed -/

example : ∀ q ∈ partialSums (5 / 2) [-1 / 10, 3], Representable q := by
  simp only [partialSums, List.mem_cons, List.not_mem_nil, or_false, forall_eq_or_imp, forall_eq]
  refine ⟨?_, ?_, ?_⟩ <;> rw [← representable_iff] <;> decide +kernel

example : ∀ q ∈ partialSums (5 / 2) [1 / 4, -3], IsDouble q := by
  simp only [partialSums, List.mem_cons, List.not_mem_nil, or_false, forall_eq_or_imp, forall_eq]
  exact ⟨⟨5, -1, by norm_num, by norm_num, by norm_num, by norm_num⟩, ⟨11, -2, by norm_num, by norm_num, by norm_num, by norm_num⟩,
    ⟨-1, -2, by norm_num, by norm_num, by norm_num, by norm_num⟩⟩

example : Demo.ask "[\"avg(1, 2.5, 4) + sum(1, 2, 3) * product(2, 0.5)\", null, null]" = some (200, Prexel.str "{\"result\":\"8.5\",\"error\":null}") := by
  decide +kernel
example : Demo.ask "[\"avg(1, 2.5, 4)\", \"float\", null]" = some (200, Prexel.str "{\"result\":\"2.5\",\"error\":null}") := by decide +kernel

end Prexel
