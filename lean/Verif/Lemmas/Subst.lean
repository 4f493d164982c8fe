import Verif.Lemmas.Wrap
import Verif.Lemmas.RpnExpr
/-!
# Replacing a bracketed expression by another one

Two runs of `infix_to_rpn` over token lists that differ only between two brackets. The runs differ in the positions they record
(`grouping_count`) and in the output; everything else is the same.
-/

set_option linter.unusedVariables false
set_option linter.unusedSimpArgs false

namespace Prexel
variable {N : Type}

/-- Every function on the operator stack lies directly below a grouping open. -/
def FnCovered (ops : List (Token N)) : Prop := ∀ X f r, ops = X ++ .function f :: r → ∃ Y c, X = Y ++ [.gopen c]

/-- The grouping opens that have a function below them. -/
def depth : List (Token N) → Nat
  | [] => 0
  | t :: r => if t.isGopen && r.any Token.isFunction then depth r + 1 else depth r

theorem FnCovered.nil : FnCovered ([] : List (Token N)) := by intro X f r h; simp at h

theorem FnCovered.cons {t : Token N} {r : List (Token N)} (h : FnCovered r) (ht : t.isFunction = false) : FnCovered (t :: r) := by
  intro X f s hx
  cases X with
  | nil => simp at hx; rw [hx.1] at ht; simp [Token.isFunction] at ht
  | cons a X =>
    simp at hx
    obtain ⟨Y, c, hY⟩ := h X f s hx.2
    exact ⟨a :: Y, c, by simp [hY]⟩

theorem FnCovered.call {c : Char} {f : Str} {r : List (Token N)} (h : FnCovered r) : FnCovered (.gopen c :: .function f :: r) := by
  intro X g s hx
  match X with
  | [] => simp at hx
  | [a] => simp at hx; exact ⟨[], c, by simp [hx.1]⟩
  | a :: b :: X =>
    simp at hx
    obtain ⟨Y, c', hY⟩ := h X g s hx.2.2
    exact ⟨a :: b :: Y, c', by simp [hY]⟩

theorem FnCovered.drop {p r : List (Token N)} (h : FnCovered (p ++ r)) (hp : NoOpen p) : FnCovered r ∧ (∀ t ∈ p, t.isFunction = false) := by
  refine ⟨?_, ?_⟩
  · intro X f s hx
    obtain ⟨Y, c, hY⟩ := h (p ++ X) f s (by simp [hx])
    rcases List.eq_nil_or_concat X with rfl | ⟨X', x, rfl⟩
    · simp at hY
      have := hp (.gopen c) (by simp [hY])
      simp [Token.isGopen] at this
    · refine ⟨X', c, ?_⟩
      rw [List.concat_eq_append, ← List.append_assoc] at hY
      have := List.append_inj_right' hY rfl
      simp_all
  · intro t ht
    obtain ⟨a, b, rfl⟩ := List.append_of_mem ht
    cases t with
    | function f =>
      exfalso
      obtain ⟨Y, c, hY⟩ := h a f (b ++ r) (by simp)
      have := hp (.gopen c) (by simp [hY])
      simp [Token.isGopen] at this
    | _ => rfl

theorem FnCovered.tail_open {c : Char} {r : List (Token N)} (h : FnCovered (.gopen c :: r)) : FnCovered r ∨ ∃ f s, r = .function f :: s ∧ FnCovered s := by
  by_cases hr : ∃ f s, r = .function f :: s
  · obtain ⟨f, s, rfl⟩ := hr
    right
    refine ⟨f, s, rfl, ?_⟩
    intro X g u hx
    obtain ⟨Y, d, hY⟩ := h (.gopen c :: .function f :: X) g u (by simp [hx])
    rcases List.eq_nil_or_concat X with rfl | ⟨X', x, rfl⟩
    · exfalso
      have : ([Token.gopen c] ++ [Token.function f] : List (Token N)) = Y ++ [.gopen d] := by simpa using hY
      have := List.append_inj_right' this rfl
      simp at this
    · refine ⟨X', d, ?_⟩
      have : (Token.gopen c :: Token.function f :: X') ++ [x] = Y ++ [.gopen d] := by simpa using hY
      have := List.append_inj_right' this rfl
      simp_all
  · left
    intro X g u hx
    obtain ⟨Y, d, hY⟩ := h (.gopen c :: X) g u (by simp [hx])
    rcases List.eq_nil_or_concat X with rfl | ⟨X', x, rfl⟩
    · exfalso; exact hr ⟨g, u, by simpa using hx⟩
    · refine ⟨X', d, ?_⟩
      have : (Token.gopen c :: X') ++ [x] = Y ++ [.gopen d] := by simpa using hY
      have := List.append_inj_right' this rfl
      simp_all

theorem depth_append {p r : List (Token N)} (hp : NoOpen p) : depth (p ++ r) = depth r := by
  induction p with
  | nil => rfl
  | cons t p ih =>
    have ht := hp t (by simp)
    simp [depth, ht, ih (fun x hx => hp x (by simp [hx]))]

theorem depth_zero {r : List (Token N)} (h : r.any Token.isFunction = false) : depth r = 0 := by
  induction r with
  | nil => rfl
  | cons t r ih =>
    simp only [List.any_cons, Bool.or_eq_false_iff] at h
    simp [depth, h.2, ih h.2]

theorem depth_pos {r : List (Token N)} (hc : FnCovered r) (h : r.any Token.isFunction = true) : 0 < depth r := by
  induction r with
  | nil => simp at h
  | cons t r ih =>
    by_cases hr : r.any Token.isFunction = true
    · by_cases ht : t.isGopen = true
      · simp only [depth, ht, hr]; simp
      · simp only [Bool.not_eq_true] at ht
        have := (FnCovered.drop (p := [t]) (r := r) hc (by intro x hx; simp at hx; simpa [hx] using ht)).1
        have := ih this hr
        simp [depth, ht, this]
    · simp only [Bool.not_eq_true] at hr
      simp only [List.any_cons, hr, Bool.or_false] at h
      cases t with
      | function f => obtain ⟨Y, c, hY⟩ := hc [] f r rfl; simp at hY
      | _ => simp [Token.isFunction] at h

theorem countP_any {r : List (Token N)} : r.any Token.isFunction = decide (0 < r.countP Token.isFunction) := by
  rw [Bool.eq_iff_iff]
  simp [List.countP_pos_iff]

/-- What both runs read around the token `t`. -/
structure SameNear (ctx : Ctx N) (T1 : List (Token N)) (p1 : Nat) (T2 : List (Token N)) (p2 : Nat) (t : Token N) : Prop where
  here1 : T1[p1]? = some t
  here2 : T2[p2]? = some t
  zero : p1 = 0 ↔ p2 = 0
  before : (∀ c, t ≠ .gclose c) → T1[p1 - 1]? = T2[p2 - 1]?
  after : t = .comma → T1[p1 + 1]? = T2[p2 + 1]?
  empty : ∀ c, emptyGroup ctx T1 p1 c = emptyGroup ctx T2 p2 c

/-- The recorded positions of both runs. `P`: the grouping opens inside calls, `J`: what closed calls have left behind. -/
structure GrpMarks (T1 T2 : List (Token N)) (d : Nat) (g1 g2 : List Nat) : Prop where
  split : ∃ P1 J1 P2 J2, g1 = P1 ++ J1 ∧ g2 = P2 ++ J2 ∧ P1.length = d ∧ P2.length = d ∧
    (∀ i a b, P1[i]? = some a → P2[i]? = some b → a ≠ 0 ∧ b ≠ 0 ∧ funAt T1 a = funAt T2 b ∧ (i + 1 = d → funAt T1 a = true)) ∧
    (∀ j ∈ J1, funAt T1 j = true) ∧ (∀ j ∈ J2, funAt T2 j = true)

/-- The states of the two runs. -/
structure RunRel (T1 : List (Token N)) (p1 : Nat) (T2 : List (Token N)) (p2 : Nat) (A1 A2 : List (Token N)) (next : Option (Token N))
    (s1 s2 : SY N) : Prop where
  ops : s1.ops = s2.ops
  argc : s1.argc = s2.argc
  out : ∃ tail, s1.output = A1 ++ tail ∧ s2.output = A2 ++ tail
  count : s1.argc.length = s1.ops.countP Token.isFunction
  marks : GrpMarks T1 T2 (depth s1.ops) s1.grp s2.grp
  cov : FnCovered s1.ops ∨ ∃ f r, s1.ops = .function f :: r ∧ FnCovered r ∧ (next = some (.gopen '(') ∨ next = some (.gclose '(')) ∧
    funAt T1 p1 = true ∧ funAt T2 p2 = true

theorem popToOpen_out (ops o o' : List (Token N)) :
    (popToOpen ops o = none ∧ popToOpen ops o' = none) ∨
      ∃ c k p, ops = p ++ .gopen c :: k ∧ NoOpen p ∧ popToOpen ops o = some (c, k, o ++ p) ∧ popToOpen ops o' = some (c, k, o' ++ p) := by
  cases h : popToOpen ops o with
  | none =>
    left
    refine ⟨rfl, ?_⟩
    cases h' : popToOpen ops o' with
    | none => rfl
    | some r =>
      obtain ⟨c, k, q⟩ := r
      obtain ⟨p, rfl, -, -⟩ := popToOpen_some h'
      have := popToOpen_none h (.gopen c) (by simp)
      simp [Token.isGopen] at this
  | some r =>
    right
    obtain ⟨c, k, q⟩ := r
    obtain ⟨p, rfl, rfl, hp⟩ := popToOpen_some h
    exact ⟨c, k, p, rfl, hp, rfl, popToOpen_append hp c k o'⟩

theorem checkComma_ok {T : List (Token N)} {g : List Nat} {pos : Nat} (h : ∀ x ∈ g.head?, funAt T x = true) :
    checkCommaPosition T g pos = if pos = 0 then .err .invalidInput
      else if (T[pos - 1]?).any Token.isGopen then .err .invalidInput
      else if (T[pos + 1]?).any Token.isGclose then .err .invalidInput else .ok () := by
  unfold checkCommaPosition
  cases g with
  | nil => rfl
  | cons a g =>
    have ha : funAt T a = true := h a (by simp)
    cases a with
    | zero => simp [funAt] at ha
    | succ a =>
      have : (T[a]?).any Token.isFunction = true := by simpa [funAt] using ha
      simp [this]

theorem checkComma_head {T1 T2 : List (Token N)} {g1 g2 : List Nat} {a b p1 p2 : Nat} (ha : a ≠ 0) (hb : b ≠ 0) (h : funAt T1 a = funAt T2 b)
    (h0 : p1 = 0 ↔ p2 = 0) (h1 : T1[p1 - 1]? = T2[p2 - 1]?) (h2 : T1[p1 + 1]? = T2[p2 + 1]?) :
    checkCommaPosition T1 (a :: g1) p1 = checkCommaPosition T2 (b :: g2) p2 := by
  unfold checkCommaPosition
  obtain ⟨a, rfl⟩ := Nat.exists_eq_succ_of_ne_zero ha
  obtain ⟨b, rfl⟩ := Nat.exists_eq_succ_of_ne_zero hb
  have : (T1[a]?).any Token.isFunction = (T2[b]?).any Token.isFunction := by simpa [funAt] using h
  simp [this, h0, h1, h2]

theorem RunRel.atom {T1 T2 A1 A2 : List (Token N)} {p1 p2 : Nat} {next : Option (Token N)} {s1 s2 : SY N}
    (h : RunRel T1 p1 T2 p2 A1 A2 next s1 s2) (hc : FnCovered s1.ops) (ctx : Ctx N) (t : Token N) (q1 q2 : Nat) (next' : Option (Token N)) :
    RunRel T1 q1 T2 q2 A1 A2 next' (pushNumber ctx s1 t) (pushNumber ctx s2 t) := by
  obtain ⟨ho, ha, ⟨tail, ht1, ht2⟩, hn, hm, -⟩ := h
  obtain ⟨o1, ops1, ac1, g1⟩ := s1
  obtain ⟨o2, ops2, ac2, g2⟩ := s2
  simp only at ho ha ht1 ht2 hn hm hc
  subst ho ha ht1 ht2
  have plain : RunRel T1 q1 T2 q2 A1 A2 next' (⟨A1 ++ tail ++ [t], ops1, ac1, g1⟩ : SY N) ⟨A2 ++ tail ++ [t], ops1, ac1, g2⟩ :=
    ⟨rfl, rfl, ⟨tail ++ [t], by simp, by simp⟩, hn, hm, .inl hc⟩
  cases ops1 with
  | nil => exact plain
  | cons x ops =>
    cases x with
    | unary op =>
      simp only [pushNumber]
      split
      · refine ⟨rfl, rfl, ⟨tail ++ [t, .unary op], by simp, by simp⟩, ?_, ?_, .inl ?_⟩
        · simpa [Token.isFunction] using hn
        · have : depth (Token.unary op :: ops) = depth ops := depth_append (p := [.unary op]) (by intro x hx; simp at hx; simp [hx, Token.isGopen])
          rw [this] at hm
          exact hm
        · exact (FnCovered.drop (p := [.unary op]) hc (by intro x hx; simp at hx; simp [hx, Token.isGopen])).1
      · exact plain
    | _ => exact plain

theorem RunRel.imp {T1 T2 A1 A2 : List (Token N)} {p1 p2 : Nat} {next next' : Option (Token N)} {s1 s2 : SY N}
    (h : RunRel T1 p1 T2 p2 A1 A2 next s1 s2) (ctx : Ctx N) (t : Token N) (hc : FnCovered s1.ops ∨ ∃ f, t = .function f) :
    RunRel T1 p1 T2 p2 A1 A2 next (implicitMulBlock ctx t next' s1) (implicitMulBlock ctx t next' s2) := by
  unfold implicitMulBlock
  split
  · rename_i hi
    have hc : FnCovered s1.ops := by
      rcases hc with hc | ⟨f, rfl⟩
      · exact hc
      · simp [implicitMulHere] at hi
    obtain ⟨ho, ha, hout, hn, hm, -⟩ := h
    refine ⟨by simp [ho], ha, hout, by simpa [Token.isFunction] using hn, ?_, .inl (hc.cons rfl)⟩
    have : depth (Token.binary ['*'] :: s1.ops) = depth s1.ops := depth_append (p := [.binary ['*']]) (by intro x hx; simp at hx; simp [hx, Token.isGopen])
    simp only [this]
    exact hm
  · exact h

theorem depth_open {c : Char} {r : List (Token N)} : depth (Token.gopen c :: r) = if r.any Token.isFunction then depth r + 1 else depth r := by
  simp [depth, Token.isGopen]

theorem GrpMarks.push {T1 T2 : List (Token N)} {d : Nat} {g1 g2 : List Nat} (h : GrpMarks T1 T2 d g1 g2) {a b : Nat} (ha : a ≠ 0) (hb : b ≠ 0)
    (hab : funAt T1 a = funAt T2 b) (h0 : d = 0 → funAt T1 a = true) : GrpMarks T1 T2 (d + 1) (a :: g1) (b :: g2) := by
  obtain ⟨P1, J1, P2, J2, e1, e2, l1, l2, hp, j1, j2⟩ := h
  refine ⟨a :: P1, J1, b :: P2, J2, by simp [e1], by simp [e2], by simp [l1], by simp [l2], ?_, j1, j2⟩
  intro i x y hx hy
  cases i with
  | zero =>
    simp at hx hy
    subst hx hy
    exact ⟨ha, hb, hab, fun h => h0 (by omega)⟩
  | succ i =>
    obtain ⟨q1, q2, q3, q4⟩ := hp i x y (by simpa using hx) (by simpa using hy)
    exact ⟨q1, q2, q3, fun h => q4 (by omega)⟩

/-- Closing a bracket inside a call. -/
theorem GrpMarks.pop {T1 T2 : List (Token N)} {d : Nat} {g1 g2 : List Nat} (h : GrpMarks T1 T2 (d + 1) g1 g2) : GrpMarks T1 T2 d g1.tail g2.tail := by
  obtain ⟨P1, J1, P2, J2, e1, e2, l1, l2, hp, j1, j2⟩ := h
  cases P1 with
  | nil => simp at l1
  | cons a P1 =>
    cases P2 with
    | nil => simp at l2
    | cons b P2 =>
      refine ⟨P1, J1, P2, J2, by simp [e1], by simp [e2], by simpa using l1, by simpa using l2, ?_, j1, j2⟩
      intro i x y hx hy
      obtain ⟨q1, q2, q3, q4⟩ := hp (i + 1) x y (by simpa using hx) (by simpa using hy)
      exact ⟨q1, q2, q3, fun h => q4 (by omega)⟩

/-- Closing the outermost call leaves its position behind. -/
theorem GrpMarks.leave {T1 T2 : List (Token N)} {g1 g2 : List Nat} (h : GrpMarks T1 T2 1 g1 g2) : GrpMarks T1 T2 0 g1 g2 := by
  obtain ⟨P1, J1, P2, J2, e1, e2, l1, l2, hp, j1, j2⟩ := h
  match P1, P2, l1, l2 with
  | [a], [b], _, _ =>
    obtain ⟨q1, q2, q3, q4⟩ := hp 0 a b rfl rfl
    have := q4 rfl
    refine ⟨[], a :: J1, [], b :: J2, by simp [e1], by simp [e2], rfl, rfl, by simp, ?_, ?_⟩
    · intro j hj; simp at hj; rcases hj with rfl | hj; exact this; exact j1 j hj
    · intro j hj; simp at hj; rcases hj with rfl | hj; rw [← q3]; exact this; exact j2 j hj

theorem close_paren (ctx : Ctx N) (st : SY N) : pushGroupingClose ctx '(' st = .err .invalidExpression := by
  unfold pushGroupingClose
  split
  · rfl
  · split
    · rfl
    · rename_i c _ _ _ _ _ hg
      rw [if_neg]
      rintro rfl
      simp only [Config.getGroupSymbol, Option.map_eq_some_iff] at hg
      obtain ⟨g, -, hg⟩ := hg
      simp only [Grouping.symbols, Prod.mk.injEq] at hg
      cases g <;> exact absurd hg.2 (by decide)

theorem close_rel {T1 T2 A1 A2 : List (Token N)} {p1 p2 : Nat} {next : Option (Token N)} {s1 s2 : SY N} (ctx : Ctx N)
    (h : RunRel T1 p1 T2 p2 A1 A2 next s1 s2) (hc : FnCovered s1.ops) (c : Char) (q1 q2 : Nat) (next' : Option (Token N)) :
    ResRel (fun s1 s2 : SY N => RunRel T1 q1 T2 q2 A1 A2 next' { s1 with grp := if s1.argc.isEmpty then s1.grp else s1.grp.tail }
      { s2 with grp := if s2.argc.isEmpty then s2.grp else s2.grp.tail } ∧ FnCovered s1.ops)
      (pushGroupingClose ctx c s1) (pushGroupingClose ctx c s2) := by
  obtain ⟨ho, ha, ⟨tail, ht1, ht2⟩, hn, hm, -⟩ := h
  obtain ⟨o1, ops1, ac1, g1⟩ := s1
  obtain ⟨o2, ops2, ac2, g2⟩ := s2
  simp only at ho ha ht1 ht2 hn hm hc
  subst ho ha ht1 ht2
  unfold pushGroupingClose
  simp only
  rcases popToOpen_out ops1 (A1 ++ tail) (A2 ++ tail) with ⟨h1, h2⟩ | ⟨c', k, p, rfl, hp, h1, h2⟩
  · rw [h1, h2]; simp [ResRel]
  · rw [h1, h2]
    simp only
    obtain ⟨hc', hpf⟩ := hc.drop hp
    rw [depth_append hp] at hm
    have hcount : (p ++ Token.gopen c' :: k).countP Token.isFunction = k.countP Token.isFunction := by
      rw [List.countP_append, List.countP_eq_zero.mpr (by intro x hx; simp [hpf x hx]), List.countP_cons]
      simp [Token.isFunction]
    rw [hcount] at hn
    rw [depth_open] at hm
    cases hg : ctx.config.getGroupSymbol c' with
    | none => simp [ResRel]
    | some r =>
      simp only
      split
      · cases ac1 with
        | nil =>
          have hk : k.any Token.isFunction = false := by rw [countP_any, ← hn]; simp
          have hck : FnCovered k := by
            rcases hc'.tail_open with h | ⟨f, s, rfl, -⟩
            · exact h
            · simp [Token.isFunction] at hk
          simp only [ResRel, List.isEmpty_nil, if_true]
          refine ⟨⟨rfl, rfl, ⟨tail ++ p, by simp, by simp⟩, by simpa using hn, ?_, .inl hck⟩, hck⟩
          simpa [hk] using hm
        | cons n ac =>
          have hk : k.any Token.isFunction = true := by rw [countP_any, ← hn]; simp
          simp only [hk, if_true] at hm
          rcases hc'.tail_open with hck | ⟨f, s, rfl, hcs⟩
          · have hne : ∀ f s, k ≠ .function f :: s := by
              rintro f s rfl
              obtain ⟨Y, d, hY⟩ := hck [] f s rfl
              simp at hY
            have key : ∀ (o : List (Token N)) (g : List Nat), (match n :: ac, k with
                | n :: argc, .function f :: ops' =>
                  Res.ok ({ output := o ++ [.argCount (n + 1), .function f], ops := ops', argc := argc, grp := g } : SY N)
                | _, _ => Res.ok { output := o, ops := k, argc := n :: ac, grp := g }) =
                Res.ok { output := o, ops := k, argc := n :: ac, grp := g } := by
              intro o g
              cases k with
              | nil => rfl
              | cons x k => cases x with
                | function f => exact absurd rfl (hne f k)
                | _ => rfl
            have k1 := key (A1 ++ tail ++ p) g1
            have k2 := key (A2 ++ tail ++ p) g2
            refine (show ∀ x y x' y' : Res (SY N), x = x' → y = y' → ResRel _ x' y' → ResRel _ x y by rintro _ _ _ _ rfl rfl h; exact h) _ _ _ _ k1 k2 ?_
            simp only [ResRel, List.isEmpty_cons, Bool.false_eq_true, if_false]
            exact ⟨⟨rfl, rfl, ⟨tail ++ p, by simp, by simp⟩, hn, hm.pop, .inl hck⟩, hck⟩
          · simp only [ResRel]
            have hn' : ac.length = s.countP Token.isFunction := by
              simp [List.countP_cons, Token.isFunction] at hn; exact hn
            have hd : depth (Token.function f :: s) = depth s := depth_append (p := [.function f]) (by intro x hx; simp at hx; simp [hx, Token.isGopen])
            rw [hd] at hm
            refine ⟨⟨rfl, rfl, ⟨tail ++ p ++ [.argCount (n + 1), .function f], by simp, by simp⟩, hn', ?_, .inl hcs⟩, hcs⟩
            simp only
            cases ac with
            | nil =>
              have : s.any Token.isFunction = false := by rw [countP_any, ← hn']; simp
              simp only [List.isEmpty_nil, if_true]
              rw [depth_zero this] at hm ⊢
              exact hm.leave
            | cons m ac =>
              simp only [List.isEmpty_cons, Bool.false_eq_true, if_false]
              exact hm.pop
      · simp [ResRel]

theorem step_rel {T1 T2 A1 A2 : List (Token N)} {p1 p2 : Nat} {next : Option (Token N)} {s1 s2 : SY N} (ctx : Ctx N)
    (hcc : ctx.config.customFunctionCall = false) (hA : A1 = [] ↔ A2 = []) (t : Token N) (hnear : SameNear ctx T1 p1 T2 p2 t)
    (hpos : s1.argc = [] ∨ p1 ≠ 0) (h : RunRel T1 p1 T2 p2 A1 A2 (some t) s1 s2) :
    ResRel (RunRel T1 (p1 + 1) T2 (p2 + 1) A1 A2 next) (syStep ctx T1 p1 t next s1) (syStep ctx T2 p2 t next s2) := by
  unfold syStep
  have fin : ∀ x y : Res (SY N), ResRel (fun a b => RunRel T1 (p1 + 1) T2 (p2 + 1) A1 A2 next a b ∧ (FnCovered a.ops ∨ ∃ f, t = .function f)) x y →
      ResRel (RunRel T1 (p1 + 1) T2 (p2 + 1) A1 A2 next) (x.bind fun st => .ok (implicitMulBlock ctx t next st))
        (y.bind fun st => .ok (implicitMulBlock ctx t next st)) := by
    intro x y hxy
    exact hxy.bind fun a b hab => hab.1.imp ctx t hab.2
  apply fin
  have hplain : t ≠ .gopen '(' → t ≠ .gclose '(' → FnCovered s1.ops := by
    intro h1 h2
    rcases h.cov with hc | ⟨f, r, -, -, hx | hx, -⟩
    · exact hc
    · injection hx with hx; exact absurd hx h1
    · injection hx with hx; exact absurd hx h2
  have hdep : ∀ (x : Token N) (r : List (Token N)), x.isGopen = false → depth (x :: r) = depth r := by
    intro x r hx; exact depth_append (p := [x]) (by intro y hy; simp at hy; simp [hy, hx])
  cases t with
  | number n =>
    have := h.atom (hplain (by simp) (by simp)) ctx (.number n) (p1 + 1) (p2 + 1) next
    exact ⟨this, .inl (this.cov.resolve_right (by
      rintro ⟨f, r, hf, -⟩
      have hc := (h.atom (hplain (by simp) (by simp)) ctx (.number n) 0 0 none).cov
      rcases hc with hc | ⟨_, _, _, _, hx, _⟩
      · obtain ⟨Y, c, hY⟩ := hc [] f r hf; simp at hY
      · simp at hx))⟩
  | variable_ n =>
    have := h.atom (hplain (by simp) (by simp)) ctx (.variable_ n) (p1 + 1) (p2 + 1) next
    exact ⟨this, .inl (this.cov.resolve_right (by
      rintro ⟨f, r, hf, -⟩
      have hc := (h.atom (hplain (by simp) (by simp)) ctx (.variable_ n) 0 0 none).cov
      rcases hc with hc | ⟨_, _, _, _, hx, _⟩
      · obtain ⟨Y, c, hY⟩ := hc [] f r hf; simp at hY
      · simp at hx))⟩
  | constant n =>
    have := h.atom (hplain (by simp) (by simp)) ctx (.constant n) (p1 + 1) (p2 + 1) next
    exact ⟨this, .inl (this.cov.resolve_right (by
      rintro ⟨f, r, hf, -⟩
      have hc := (h.atom (hplain (by simp) (by simp)) ctx (.constant n) 0 0 none).cov
      rcases hc with hc | ⟨_, _, _, _, hx, _⟩
      · obtain ⟨Y, c, hY⟩ := hc [] f r hf; simp at hY
      · simp at hx))⟩
  | binary b =>
    have hc := hplain (by simp) (by simp)
    obtain ⟨ho, ha, ⟨tail, ht1, ht2⟩, hn, hm, -⟩ := h
    simp only [dispatch, pushBinaryFunction]
    cases hb : ctx.getBinary b with
    | none => simp [ResRel]
    | some f =>
      simp only [ResRel]
      rw [← ho, ht1, ht2]
      obtain ⟨popped, e1, e2⟩ := popForBinary_out ctx f s1.ops (A1 ++ tail) (A2 ++ tail)
      obtain ⟨popped', e3, e4, hno⟩ := popForBinary_eff ctx f s1.ops (A1 ++ tail)
      have hpp : popped = popped' := by rw [e1] at e4; simpa using e4
      subst hpp
      rw [e2, e4]
      generalize (popForBinary ctx f s1.ops (A1 ++ tail)).1 = k at *
      rw [e3] at hc hn hm
      obtain ⟨hck, hpf⟩ := hc.drop hno
      refine ⟨⟨rfl, ha, ⟨tail ++ popped, by simp, by simp⟩, ?_, ?_, .inl (hck.cons rfl)⟩, .inl (hck.cons rfl)⟩
      · rw [hn, List.countP_append, List.countP_eq_zero.mpr (by intro x hx; simp [hpf x hx]), List.countP_cons]
        simp [Token.isFunction]
      · rw [depth_append hno] at hm
        simp only [hdep (.binary b) k rfl]
        exact hm
  | unary u =>
    have hc := hplain (by simp) (by simp)
    obtain ⟨ho, ha, ⟨tail, ht1, ht2⟩, hn, hm, -⟩ := h
    simp only [dispatch, pushUnaryFunction]
    cases hu : ctx.getUnary u with
    | none => simp [ResRel]
    | some f =>
      simp only
      split
      · simp only [ResRel]
        refine ⟨⟨by simp [ho], ha, ⟨tail, ht1, ht2⟩, by simpa [Token.isFunction] using hn, ?_, .inl (hc.cons rfl)⟩, .inl (hc.cons rfl)⟩
        simp only [hdep (.unary u) _ rfl]
        exact hm
      · have he : s1.output.isEmpty = s2.output.isEmpty := by
          rw [ht1, ht2]
          cases tail with
          | cons a b => cases A1 <;> cases A2 <;> rfl
          | nil =>
            simp only [List.append_nil]
            rw [Bool.eq_iff_iff, List.isEmpty_iff, List.isEmpty_iff]
            exact hA
        rw [he]
        split
        · simp [ResRel]
        · simp only [ResRel]
          exact ⟨⟨ho, ha, ⟨tail ++ [.unary u], by simp [ht1], by simp [ht2]⟩, hn, hm, .inl hc⟩, .inl hc⟩
  | function f =>
    have hc := hplain (by simp) (by simp)
    obtain ⟨ho, ha, ⟨tail, ht1, ht2⟩, hn, hm, -⟩ := h
    simp only [dispatch, hcc, Bool.not_false, Bool.true_and]
    split
    · simp [ResRel]
    · rename_i hx
      simp only [ResRel]
      refine ⟨⟨by simp [ho], by simp [ha], ⟨tail, ht1, ht2⟩, ?_, ?_, .inr ⟨f, s1.ops, rfl, hc, ?_, ?_, ?_⟩⟩, .inr ⟨f, rfl⟩⟩
      · simp [List.countP_cons, Token.isFunction, hn]
      · simp only [hdep (.function f) _ rfl]
        exact hm
      · cases next with
        | none => simp at hx
        | some x => cases x <;> simp [Token.containsSymbol] at hx <;> simp [hx]
      · simp [funAt, hnear.here1, Token.isFunction]
      · simp [funAt, hnear.here2, Token.isFunction]
  | gopen c =>
    obtain ⟨ho, ha, ⟨tail, ht1, ht2⟩, hn, hm, hcov⟩ := h
    have hcov' : FnCovered (.gopen c :: s1.ops) := by
      rcases hcov with hc | ⟨f, r, hr, hc, -⟩
      · exact hc.cons rfl
      · rw [hr]; exact hc.call
    simp only [dispatch, ResRel]
    refine ⟨⟨by simp [ho], ha, ⟨tail, ht1, ht2⟩, by simpa [Token.isFunction] using hn, ?_, .inl hcov'⟩, .inl hcov'⟩
    simp only [depth_open, ← ha]
    rw [countP_any, ← hn]
    cases hac : s1.argc with
    | nil => simpa using hm
    | cons n ac =>
      simp only [List.length_cons, Nat.zero_lt_succ, decide_true, if_true, List.isEmpty_cons, Bool.false_eq_true, if_false]
      have hq : p1 ≠ 0 ∧ p2 ≠ 0 ∧ funAt T1 p1 = funAt T2 p2 ∧ (depth s1.ops = 0 → funAt T1 p1 = true) := by
        have hb : funAt T1 p1 = funAt T2 p2 := by
          unfold funAt
          rw [hnear.before (by simp)]
          simp [hnear.zero]
        rcases hcov with hc | ⟨f, r, hr, hc, -, h1, h2⟩
        · have hd : 0 < depth s1.ops := depth_pos hc (by rw [countP_any, ← hn, hac]; simp)
          have hp1 : p1 ≠ 0 := hpos.resolve_left (by simp [hac])
          exact ⟨hp1, fun h => hp1 (hnear.zero.mpr h), hb, by omega⟩
        · have : p1 ≠ 0 := by rintro rfl; simp [funAt] at h1
          exact ⟨this, fun h => this (hnear.zero.mpr h), hb, fun _ => h1⟩
      exact hm.push hq.1 hq.2.1 hq.2.2.1 hq.2.2.2
  | gclose c =>
    by_cases hc' : c = '('
    · subst hc'
      simp [dispatch, close_paren, ResRel]
    · have hc := hplain (by simp) (by simpa using hc')
      simp only [dispatch]
      refine (close_rel ctx h hc c (p1 + 1) (p2 + 1) next).bind fun a b hab => ?_
      rw [hnear.empty c]
      cases emptyGroup ctx T2 p2 c with
      | none => simp [ResRel]
      | some b' =>
        cases b' with
        | true => simp [ResRel]
        | false => exact ⟨hab.1, .inl hab.2⟩
  | comma =>
    have hc := hplain (by simp) (by simp)
    obtain ⟨ho, ha, ⟨tail, ht1, ht2⟩, hn, hm, -⟩ := h
    simp only [dispatch]
    have hcheck : checkCommaPosition T1 s1.grp p1 = checkCommaPosition T2 s2.grp p2 := by
      obtain ⟨P1, J1, P2, J2, e1, e2, l1, l2, hp, j1, j2⟩ := hm
      cases P1 with
      | nil =>
        have : P2 = [] := by simp at l1; simpa [← l1] using l2
        subst this
        simp only [List.nil_append] at e1 e2
        rw [e1, e2, checkComma_ok (fun x hx => j1 x (List.mem_of_mem_head? hx)), checkComma_ok (fun x hx => j2 x (List.mem_of_mem_head? hx)),
          hnear.before (by simp), hnear.after rfl]
        simp [hnear.zero]
      | cons a P1 =>
        cases P2 with
        | nil => simp at l1 l2; omega
        | cons b P2 =>
          obtain ⟨q1, q2, q3, -⟩ := hp 0 a b rfl rfl
          rw [e1, e2]
          exact checkComma_head q1 q2 q3 hnear.zero (hnear.before (by simp)) (hnear.after rfl)
    rw [hcheck]
    cases checkCommaPosition T2 s2.grp p2 with
    | err k => simp [ResRel]
    | panic => simp [ResRel]
    | ok _ =>
      simp only [Res.bind_ok, pushComma]
      rw [← ha]
      cases hac : s1.argc with
      | nil => simp [ResRel]
      | cons n ac =>
        simp only [popUntilOpen_eq, ← ho, ht1, ht2]
        rcases popToOpen_out s1.ops (A1 ++ tail) (A2 ++ tail) with ⟨h1, h2⟩ | ⟨c', k, p, hk, hp, h1, h2⟩
        · rw [h1, h2]; simp [ResRel]
        · rw [h1, h2]
          simp only [Option.map_some, ResRel]
          rw [hk] at hc hn hm
          obtain ⟨hck, hpf⟩ := hc.drop hp
          rw [depth_append hp] at hm
          refine ⟨⟨rfl, rfl, ⟨tail ++ p, by simp, by simp⟩, ?_, hm, .inl hck⟩, .inl hck⟩
          rw [hac, List.countP_append, List.countP_eq_zero.mpr (by intro x hx; simp [hpf x hx])] at hn
          simpa using hn
  | argCount n => simp [dispatch, ResRel]
  | unknown n => simp [dispatch, ResRel]

/-- The two runs over a common part of the token lists. -/
theorem loop_rel {T1 T2 A1 A2 : List (Token N)} (ctx : Ctx N) (hcc : ctx.config.customFunctionCall = false) (hA : A1 = [] ↔ A2 = [])
    (ms r1 r2 : List (Token N)) (hr : r1.head? = r2.head?) (p1 p2 : Nat) (s1 s2 : SY N)
    (hnear : ∀ i t, ms[i]? = some t → SameNear ctx T1 (p1 + i) T2 (p2 + i) t) (hpos : s1.argc = [] ∨ p1 ≠ 0)
    (h : RunRel T1 p1 T2 p2 A1 A2 (ms ++ r1).head? s1 s2) :
    (∃ k, syLoop ctx T1 p1 (ms ++ r1) s1 = .err k ∧ syLoop ctx T2 p2 (ms ++ r2) s2 = .err k) ∨
    (syLoop ctx T1 p1 (ms ++ r1) s1 = .panic ∧ syLoop ctx T2 p2 (ms ++ r2) s2 = .panic) ∨
    ∃ s1' s2', syLoop ctx T1 p1 (ms ++ r1) s1 = syLoop ctx T1 (p1 + ms.length) r1 s1' ∧
      syLoop ctx T2 p2 (ms ++ r2) s2 = syLoop ctx T2 (p2 + ms.length) r2 s2' ∧
      RunRel T1 (p1 + ms.length) T2 (p2 + ms.length) A1 A2 r1.head? s1' s2' ∧ (s1'.argc = [] ∨ p1 + ms.length ≠ 0) ∧
      (ArgOK s1.output ∧ NoCount s1.ops → ArgOK s1'.output ∧ NoCount s1'.ops) := by
  induction ms generalizing p1 p2 s1 s2 with
  | nil => exact .inr (.inr ⟨s1, s2, rfl, rfl, h, hpos, id⟩)
  | cons t ms ih =>
    have hnext : (ms ++ r1).head? = (ms ++ r2).head? := by cases ms <;> simp [hr]
    have hs := step_rel (next := (ms ++ r1).head?) ctx hcc hA t (by simpa using hnear 0 t rfl) hpos h
    simp only [List.cons_append, syLoop]
    rw [← hnext]
    revert hs
    cases hs1 : syStep ctx T1 p1 t (ms ++ r1).head? s1 with
    | err k =>
      cases syStep ctx T2 p2 t (ms ++ r1).head? s2 with
      | err k' => intro hs; left; exact ⟨k, rfl, by simp [ResRel] at hs; simp [hs, Res.bind]⟩
      | _ => simp [ResRel]
    | panic =>
      cases syStep ctx T2 p2 t (ms ++ r1).head? s2 with
      | panic => intro _; right; left; exact ⟨rfl, rfl⟩
      | _ => simp [ResRel]
    | ok a =>
      cases syStep ctx T2 p2 t (ms ++ r1).head? s2 with
      | ok b =>
        intro hs
        simp only [Res.bind_ok]
        have := ih (p1 + 1) (p2 + 1) a b (fun i t hi => by
          have := hnear (i + 1) t (by simpa using hi)
          rwa [show p1 + 1 + i = p1 + (i + 1) by omega, show p2 + 1 + i = p2 + (i + 1) by omega]) (.inr (by omega)) hs
        rw [show p1 + 1 + ms.length = p1 + (t :: ms).length by simp; omega, show p2 + 1 + ms.length = p2 + (t :: ms).length by simp; omega] at this
        rcases this with h1 | h1 | ⟨a', b', h1, h2, h3, h4, h5⟩
        · exact .inl h1
        · exact .inr (.inl h1)
        · exact .inr (.inr ⟨a', b', h1, h2, h3, h4, fun hi => h5 (argOK_step hi hs1)⟩)
      | _ => simp [ResRel]

theorem RunRel.init (T1 T2 : List (Token N)) (next : Option (Token N)) : RunRel T1 0 T2 0 [] [] next SY.init SY.init :=
  ⟨rfl, rfl, ⟨[], rfl, rfl⟩, rfl, ⟨[], [], [], [], rfl, rfl, rfl, rfl, by simp, by simp, by simp⟩, .inl FnCovered.nil⟩

/-- `emptyGroup` reads only the two tokens before. -/
theorem emptyGroup_congr (ctx : Ctx N) (T1 T2 : List (Token N)) (p1 p2 : Nat) (c : Char) (h1 : p1 > 1 ↔ p2 > 1)
    (h2 : T1[p1 - 1]? = T2[p2 - 1]?) (h3 : ∀ s, T1[p1 - 1]? = some (.gopen s) → T1[p1 - 2]? = T2[p2 - 2]?) :
    emptyGroup ctx T1 p1 c = emptyGroup ctx T2 p2 c := by
  unfold emptyGroup
  by_cases h : p1 > 1
  · rw [if_pos h, if_pos (h1.mp h), ← h2]
    cases hx : T1[p1 - 1]? with
    | none => rfl
    | some x =>
      cases x with
      | gopen s => simp only; rw [h3 s hx]
      | _ => rfl
  · rw [if_neg h, if_neg (fun h' => h (h1.mpr h'))]

theorem near_pre (ctx : Ctx N) (pre r1 r2 : List (Token N)) (hr : r1.head? = r2.head?) (i : Nat) (t : Token N)
    (h : pre[i]? = some t) : SameNear ctx (pre ++ r1) i (pre ++ r2) i t := by
  have hi : i < pre.length := by
    rcases Nat.lt_or_ge i pre.length with h' | h'
    · exact h'
    · rw [List.getElem?_eq_none h'] at h; cases h
  have key : ∀ j, j ≤ i + 1 → (pre ++ r1)[j]? = (pre ++ r2)[j]? := by
    intro j hj
    by_cases hjl : j < pre.length
    · rw [List.getElem?_append_left hjl, List.getElem?_append_left hjl]
    · have : j = pre.length := by omega
      subst this
      rw [List.getElem?_append_right (by omega), List.getElem?_append_right (by omega), Nat.sub_self, ← List.head?_eq_getElem?, ← List.head?_eq_getElem?, hr]
  exact ⟨by rw [List.getElem?_append_left hi, h], by rw [List.getElem?_append_left hi, h], Iff.rfl, fun _ => key _ (by omega), fun _ => key _ (by omega),
    fun c => emptyGroup_congr ctx _ _ _ _ c Iff.rfl (key _ (by omega)) (fun _ _ => key _ (by omega))⟩

theorem near_open (ctx : Ctx N) (pre r1 r2 : List (Token N)) (o : Char) :
    SameNear ctx (pre ++ .gopen o :: r1) pre.length (pre ++ .gopen o :: r2) pre.length (.gopen o) := by
  have key : ∀ j, j ≤ pre.length → (pre ++ .gopen o :: r1)[j]? = (pre ++ .gopen o :: r2)[j]? := by
    intro j hj
    by_cases hjl : j < pre.length
    · rw [List.getElem?_append_left hjl, List.getElem?_append_left hjl]
    · have : j = pre.length := by omega
      subst this
      simp
  exact ⟨by simp, by simp, Iff.rfl, fun _ => key _ (by omega), by simp,
    fun c => emptyGroup_congr ctx _ _ _ _ c Iff.rfl (key _ (by omega)) (fun _ _ => key _ (by omega))⟩

theorem near_post (ctx : Ctx N) (L1 L2 post : List (Token N)) (c : Char) (h1 : L1 ≠ []) (h2 : L2 ≠ []) (i : Nat) (t : Token N)
    (h : post[i]? = some t) :
    SameNear ctx (L1 ++ .gclose c :: post) (L1.length + 1 + i) (L2 ++ .gclose c :: post) (L2.length + 1 + i) t := by
  have key : ∀ j, (L1 ++ .gclose c :: post)[L1.length + j]? = (L2 ++ .gclose c :: post)[L2.length + j]? := by
    intro j
    rw [List.getElem?_append_right (by omega), List.getElem?_append_right (by omega)]
    simp
  have l1 : 0 < L1.length := List.length_pos_iff.mpr h1
  have l2 : 0 < L2.length := List.length_pos_iff.mpr h2
  have here : ∀ L : List (Token N), (L ++ .gclose c :: post)[L.length + 1 + i]? = some t := by
    intro L
    rw [List.getElem?_append_right (by omega), show L.length + 1 + i - L.length = i + 1 by omega]
    simpa using h
  have kb : (L1 ++ .gclose c :: post)[L1.length + 1 + i - 1]? = (L2 ++ .gclose c :: post)[L2.length + 1 + i - 1]? := by
    rw [show L1.length + 1 + i - 1 = L1.length + i by omega, show L2.length + 1 + i - 1 = L2.length + i by omega]; exact key i
  refine ⟨here L1, here L2, by omega, fun _ => kb, fun _ => ?_, fun d => emptyGroup_congr ctx _ _ _ _ d (by omega) kb ?_⟩
  · rw [show L1.length + 1 + i + 1 = L1.length + (i + 2) by omega, show L2.length + 1 + i + 1 = L2.length + (i + 2) by omega]; exact key _
  · intro s hs
    cases i with
    | zero =>
      rw [show L1.length + 1 + 0 - 1 = L1.length by omega] at hs
      simp at hs
    | succ i =>
      rw [show L1.length + 1 + (i + 1) - 2 = L1.length + i by omega, show L2.length + 1 + (i + 1) - 2 = L2.length + i by omega]; exact key _

/-- Going through a bracketed expression. -/
theorem through {T1 T2 : List (Token N)} (ctx : Ctx N) (e1 e2 : Expr N) (w1 : e1.WF ctx) (w2 : e2.WF ctx) (pre post : List (Token N)) (o c : Char)
    (hT1 : T1 = pre ++ .gopen o :: (e1.render ++ .gclose c :: post)) (hT2 : T2 = pre ++ .gopen o :: (e2.render ++ .gclose c :: post))
    (s1 s2 : SY N) (h : RunRel T1 pre.length T2 pre.length [] [] (some (.gopen o)) s1 s2) (hcc : ctx.config.customFunctionCall = false)
    (hpos : s1.argc = [] ∨ pre.length ≠ 0) :
    ∃ (A : List (Token N)) (s1' s2' : SY N),
      syLoop ctx T1 pre.length (.gopen o :: (e1.render ++ .gclose c :: post)) s1 =
        syLoop ctx T1 (pre.length + 1 + e1.render.length) (.gclose c :: post) { s1' with output := A ++ e1.done, ops := e1.pend ++ s1'.ops } ∧
      syLoop ctx T2 pre.length (.gopen o :: (e2.render ++ .gclose c :: post)) s2 =
        syLoop ctx T2 (pre.length + 1 + e2.render.length) (.gclose c :: post) { s2' with output := A ++ e2.done, ops := e2.pend ++ s2'.ops } ∧
      s1.output = A ∧ (∃ r, s1'.ops = .gopen o :: r) ∧
      RunRel T1 (pre.length + 1 + e1.render.length) T2 (pre.length + 1 + e2.render.length) (A ++ e1.postfix) (A ++ e2.postfix) (some (.gclose c))
        { s1' with output := A ++ e1.postfix } { s2' with output := A ++ e2.postfix } := by
  have hnear : SameNear ctx T1 pre.length T2 pre.length (.gopen o) := by rw [hT1, hT2]; exact near_open ..
  have hstep := step_rel (next := none) ctx hcc Iff.rfl (.gopen o) hnear hpos h
  have hgo : ∀ (T : List (Token N)) next (s : SY N), syStep ctx T pre.length (.gopen o) next s =
      .ok { s with ops := .gopen o :: s.ops, grp := if s.argc.isEmpty then s.grp else pre.length :: s.grp } := by
    intro T next s
    simp [syStep, dispatch, implicitMulBlock_eq, trail_of_gopen]
  rw [hgo, hgo] at hstep
  simp only [ResRel] at hstep
  obtain ⟨ho, ha, ⟨tail, ht1, ht2⟩, hn, hm, hcov⟩ := hstep
  simp only [List.nil_append] at ht1 ht2
  have run : ∀ (e : Expr N) (w : e.WF ctx) (s : SY N), ∃ junk, ((s.argc ≠ [] → junk = []) ∧
      ∀ j ∈ junk, funAt (pre ++ .gopen o :: (e.render ++ .gclose c :: post)) j = true) ∧
      syLoop ctx (pre ++ .gopen o :: (e.render ++ .gclose c :: post)) pre.length (.gopen o :: (e.render ++ .gclose c :: post)) s =
      syLoop ctx (pre ++ .gopen o :: (e.render ++ .gclose c :: post)) (pre.length + 1 + e.render.length) (.gclose c :: post)
        ⟨s.output ++ e.done, e.pend ++ .gopen o :: s.ops, s.argc, junk ++ if s.argc.isEmpty then s.grp else pre.length :: s.grp⟩ := by
    intro e w s
    obtain ⟨junk, hj, hl⟩ := loop_expr ctx e w (pre ++ [.gopen o]) (.gclose c :: post)
      { s with ops := .gopen o :: s.ops, grp := if s.argc.isEmpty then s.grp else pre.length :: s.grp }
      (by simp [TopNotUnary]) (by simp [TopNotFunction]) (by intro q _; simp [Stops])
    refine ⟨junk, ⟨hj.1, by simpa using hj.2⟩, ?_⟩
    rw [syLoop, hgo, Res.bind_ok]
    simp only [List.append_assoc, List.cons_append, List.nil_append, List.length_append, List.length_cons, List.length_nil,
      List.head?_cons, trail_gclose, Nat.zero_add] at hl ⊢
    exact hl
  obtain ⟨j1, ⟨hj1, hf1⟩, l1⟩ := run e1 w1 s1
  obtain ⟨j2, ⟨hj2, hf2⟩, l2⟩ := run e2 w2 s2
  rw [← hT1] at l1 hf1
  rw [← hT2] at l2 hf2
  refine ⟨tail, ⟨[], .gopen o :: s1.ops, s1.argc, j1 ++ if s1.argc.isEmpty then s1.grp else pre.length :: s1.grp⟩,
    ⟨[], .gopen o :: s2.ops, s2.argc, j2 ++ if s2.argc.isEmpty then s2.grp else pre.length :: s2.grp⟩, ?_, ?_, ht1, ⟨_, rfl⟩, ?_⟩
  · rw [l1, ht1]
  · rw [l2, ht2]
  · have hcov' : FnCovered (.gopen o :: s1.ops) := by
      rcases hcov with h | ⟨f, r, hr, -⟩
      · exact h
      · simp at hr
    refine ⟨ho, ha, ⟨[], by simp, by simp⟩, hn, ?_, .inl hcov'⟩
    simp only at hn hm ha ⊢
    cases hac : s1.argc with
    | nil =>
      rw [hac] at ha hn
      rw [← ha]
      have hd : (Token.gopen o :: s1.ops).any Token.isFunction = false := by rw [countP_any, ← hn]; simp
      rw [depth_zero hd] at hm ⊢
      rw [hac, ← ha] at hm
      obtain ⟨P1, J1, P2, J2, q1, q2, q3, q4, -, q5, q6⟩ := hm
      have : P1 = [] := List.length_eq_zero_iff.mp q3
      subst this
      have : P2 = [] := List.length_eq_zero_iff.mp q4
      subst this
      simp only [List.isEmpty_nil, if_true, List.nil_append] at q1 q2 ⊢
      refine ⟨[], j1 ++ s1.grp, [], j2 ++ s2.grp, rfl, rfl, rfl, rfl, by simp, ?_, ?_⟩
      · intro j hj
        rcases List.mem_append.mp hj with hj | hj
        · exact hf1 j hj
        · exact q5 j (by rw [← q1]; exact hj)
      · intro j hj
        rcases List.mem_append.mp hj with hj | hj
        · exact hf2 j hj
        · exact q6 j (by rw [← q2]; exact hj)
    | cons n ac =>
      rw [hj1 (by simp [hac]), hj2 (by rw [← ha]; simp [hac])]
      rw [hac] at hm
      simpa [hac, ← ha] using hm

/-- Closing the bracket: what was pending goes to the output. -/
theorem close_through (ctx : Ctx N) (e : Expr N) (w : e.WF ctx) (T : List (Token N)) (p : Nat) (c o : Char) (next : Option (Token N)) (s : SY N)
    (A r : List (Token N)) (hs : s.ops = .gopen o :: r) :
    syStep ctx T p (.gclose c) next { s with output := A ++ e.done, ops := e.pend ++ s.ops } =
      syStep ctx T p (.gclose c) next { s with output := A ++ e.postfix } := by
  unfold syStep
  congr 1
  simp only [dispatch]
  congr 1
  unfold pushGroupingClose
  simp only [hs, show e.pend = e.rightSpine.map Open.token from rfl, popToOpen_spine]
  simp only [popToOpen, e.postfix_eq ctx w, show e.pend = e.rightSpine.map Open.token from rfl, List.append_assoc]

theorem flush_out (ops o : List (Token N)) :
    (∃ k, ∀ o, flush ops o = .err k) ∨ ∀ o, flush ops o = .ok (o ++ ops) := by
  induction ops with
  | nil => right; intro o; simp [flush]
  | cons t ops ih =>
    simp only [flush]
    split
    · left; exact ⟨_, fun _ => rfl⟩
    · rcases ih with ⟨k, hk⟩ | hk
      · left; exact ⟨k, fun o => hk _⟩
      · right; intro o; rw [hk]; simp

theorem rpnLoop_split (ctx : Ctx N) (l : List (Token N)) (h : ArgOK l) (rest : List (Token N)) (vals : List N) :
    rpnLoop ctx (l ++ rest) vals none = (rpnLoop ctx l vals none).bind fun v => rpnLoop ctx rest v none := by
  fun_induction ArgOK l generalizing vals with
  | case1 => rfl
  | case2 n f r ih =>
    simp only [List.cons_append, rpnLoop, rpnStep, Option.isSome_none, Bool.false_eq_true, if_false, Res.bind_ok]
    have := fun r => rpnStep_function_argc (ctx := ctx) (f := f) (vals := vals) (ac := some n) (r := r)
    simp only [rpnStep] at this
    generalize ((Res.ofOption (ctx.getFunction f) ErrorKind.invalidInput).bind fun func =>
      (Res.ofOption (some n) ErrorKind.invalidInput).bind fun n => (func (vals.take n).reverse).bind fun r => Res.ok (r :: vals.drop n, none)) = q at *
    cases q with
    | err k => rfl
    | panic => rfl
    | ok q => simp only [Res.bind_ok]; rw [this q rfl]; exact ih h _
  | case3 => exact absurd h (by simp)
  | case4 t r hx hy ih =>
    have ht : t.isArgCount = false := by
      cases t with
      | argCount n => exact absurd rfl (hy n)
      | _ => rfl
    simp only [List.cons_append, rpnLoop]
    cases hq : rpnStep ctx t vals none with
    | err k => rfl
    | panic => rfl
    | ok q => simp only [Res.bind_ok]; rw [rpnStep_argc ht hq]; exact ih h _

/-- Expressions with the same value can replace each other between brackets. -/
theorem evalTokens_replace (ctx : Ctx N) (hcc : ctx.config.customFunctionCall = false) (e1 e2 : Expr N) (w1 : e1.WF ctx) (w2 : e2.WF ctx)
    (hd : e1.denote ctx = e2.denote ctx) (pre post : List (Token N)) (o c : Char) :
    evalTokens ctx (pre ++ .gopen o :: (e1.render ++ .gclose c :: post)) = evalTokens ctx (pre ++ .gopen o :: (e2.render ++ .gclose c :: post)) := by
  generalize hT1 : pre ++ .gopen o :: (e1.render ++ .gclose c :: post) = T1
  generalize hT2 : pre ++ .gopen o :: (e2.render ++ .gclose c :: post) = T2
  have fin : ∀ x y : Res (SY N), syLoop ctx T1 0 T1 SY.init = x → syLoop ctx T2 0 T2 SY.init = y →
      (x.bind fun st => flush st.ops st.output).bind (fun rpn => (rpnLoop ctx rpn [] none).bind rpnResult) =
      (y.bind fun st => flush st.ops st.output).bind (fun rpn => (rpnLoop ctx rpn [] none).bind rpnResult) → evalTokens ctx T1 = evalTokens ctx T2 := by
    rintro _ _ rfl rfl h
    exact h
  have p0 := loop_rel (T1 := T1) (T2 := T2) (A1 := []) (A2 := []) ctx hcc Iff.rfl pre (.gopen o :: (e1.render ++ .gclose c :: post))
    (.gopen o :: (e2.render ++ .gclose c :: post)) rfl 0 0 SY.init SY.init
    (fun i t hi => by rw [← hT1, ← hT2]; simpa using near_pre ctx pre (.gopen o :: (e1.render ++ .gclose c :: post)) (.gopen o :: (e2.render ++ .gclose c :: post)) rfl i t hi) (.inl rfl) (RunRel.init ..)
  rw [hT1, hT2] at p0
  rcases p0 with ⟨k, h1, h2⟩ | ⟨h1, h2⟩ | ⟨s1, s2, l1, l2, hrel, hpos, hok⟩
  · exact fin _ _ h1 h2 rfl
  · exact fin _ _ h1 h2 rfl
  simp only [Nat.zero_add] at l1 l2 hrel hpos
  obtain ⟨A, s1', s2', m1, m2, hA, ⟨r, hr⟩, hrel'⟩ := through ctx e1 e2 w1 w2 pre post o c hT1.symm hT2.symm s1 s2 hrel hcc hpos
  have hAok : ArgOK A := by
    rw [← hA]
    exact (hok (by simp [SY.init, ArgOK, NoCount])).1
  have hr2 : s2'.ops = .gopen o :: r := by rw [← hr]; exact hrel'.ops.symm
  have hlast : ∀ e : Expr N, (pre ++ .gopen o :: (e.render ++ .gclose c :: post))[pre.length + 1 + e.render.length - 1]? = some e.last := by
    intro e
    obtain ⟨ini, hini⟩ := e.render_last
    have := getElem?_last (pre ++ [.gopen o]) e.render ini (.gclose c :: post) _ hini
    simpa using this
  have hhere : ∀ e : Expr N, (pre ++ .gopen o :: (e.render ++ .gclose c :: post))[pre.length + 1 + e.render.length]? = some (.gclose c) := by
    intro e
    rw [List.getElem?_append_right (by omega), show pre.length + 1 + e.render.length - pre.length = e.render.length + 1 by omega]
    simp
  have hnear : SameNear ctx T1 (pre.length + 1 + e1.render.length) T2 (pre.length + 1 + e2.render.length) (.gclose c) := by
    refine ⟨by rw [← hT1]; exact hhere e1, by rw [← hT2]; exact hhere e2, by omega, fun h => absurd rfl (h c), by simp, ?_⟩
    intro d
    rw [emptyGroup_false ctx T1 _ d e1.last (by rw [← hT1]; exact hlast e1) e1.last_notGopen,
      emptyGroup_false ctx T2 _ d e2.last (by rw [← hT2]; exact hlast e2) e2.last_notGopen]
  have hne : ∀ e : Expr N, e.WF ctx → A ++ e.postfix ≠ [] := by
    intro e w h
    rw [e.postfix_eq ctx w] at h
    simp at h
    exact e.done_ne_nil h.2.1
  have hiff : A ++ e1.postfix = [] ↔ A ++ e2.postfix = [] := ⟨fun h => absurd h (hne e1 w1), fun h => absurd h (hne e2 w2)⟩
  have hstep := step_rel (next := post.head?) ctx hcc hiff (.gclose c) hnear (.inr (by omega)) hrel'
  rw [m1, syLoop, close_through ctx e1 w1 T1 _ c o _ s1' A r hr] at l1
  rw [m2, syLoop, close_through ctx e2 w2 T2 _ c o _ s2' A r hr2] at l2
  revert l1 l2 hstep
  cases syStep ctx T1 (pre.length + 1 + e1.render.length) (.gclose c) post.head? { s1' with output := A ++ e1.postfix } with
  | err k =>
    cases syStep ctx T2 (pre.length + 1 + e2.render.length) (.gclose c) post.head? { s2' with output := A ++ e2.postfix } with
    | err k' => intro l1 l2 hs; cases hs; exact fin _ _ l1 l2 rfl
    | _ => intro _ _ hs; cases hs
  | panic =>
    cases syStep ctx T2 (pre.length + 1 + e2.render.length) (.gclose c) post.head? { s2' with output := A ++ e2.postfix } with
    | panic => intro l1 l2 hs; exact fin _ _ l1 l2 rfl
    | _ => intro _ _ hs; cases hs
  | ok a =>
    cases syStep ctx T2 (pre.length + 1 + e2.render.length) (.gclose c) post.head? { s2' with output := A ++ e2.postfix } with
    | err k' => intro _ _ hs; cases hs
    | panic => intro _ _ hs; cases hs
    | ok b =>
      intro l1 l2 hs
      simp only [Res.bind_ok] at l1 l2
      have p1 := loop_rel (T1 := T1) (T2 := T2) ctx hcc hiff post [] [] rfl (pre.length + 1 + e1.render.length + 1)
        (pre.length + 1 + e2.render.length + 1) a b (fun i t hi => by
          rw [← hT1, ← hT2]
          have := near_post ctx (pre ++ .gopen o :: e1.render) (pre ++ .gopen o :: e2.render) post c (by simp) (by simp) i t hi
          simp only [List.append_assoc, List.cons_append, List.length_append, List.length_cons] at this
          rw [show pre.length + 1 + e1.render.length + 1 + i = pre.length + (e1.render.length + 1) + 1 + i by omega,
            show pre.length + 1 + e2.render.length + 1 + i = pre.length + (e2.render.length + 1) + 1 + i by omega]
          exact this) (.inr (by omega)) (by simpa [ResRel] using hs)
      simp only [List.append_nil] at p1
      rcases p1 with ⟨k, h1, h2⟩ | ⟨h1, h2⟩ | ⟨a', b', h1, h2, hrel2, -, -⟩
      · exact fin _ _ (l1.trans h1) (l2.trans h2) rfl
      · exact fin _ _ (l1.trans h1) (l2.trans h2) rfl
      · refine fin (.ok a') (.ok b') (l1.trans (h1.trans rfl)) (l2.trans (h2.trans rfl)) ?_
        obtain ⟨hops, -, ⟨tail, ht1, ht2⟩, -⟩ := hrel2
        simp only [Res.bind_ok]
        rw [← hops, ht1, ht2]
        rcases flush_out a'.ops [] with ⟨k, hk⟩ | hk
        · rw [hk, hk]
        · rw [hk, hk]
          simp only [Res.bind_ok, List.append_assoc]
          congr 1
          rw [rpnLoop_split ctx A hAok, rpnLoop_split ctx A hAok]
          congr 1
          funext v
          rw [rpnLoop_expr, rpnLoop_expr, hd]

end Prexel
