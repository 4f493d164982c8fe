import Verif.Spec.Products
import Verif.Props.Tokenizer
/-!
# C122: products without a multiplication sign
-/

namespace Prexel
variable {N : Type}

mutual
theorem Expr.bracketed_denote (c : Ctx N) : ∀ e : Expr N, e.bracketed.denote c = e.denote c
  | .imp l r => by simp only [Expr.bracketed, Expr.denote, Expr.bracketed_denote c l, Expr.bracketed_denote c r]
  | .atom a => rfl
  | .signed u a => rfl
  | .prefixed u e => by simp only [Expr.bracketed, Expr.denote, Expr.bracketed_denote c e]
  | .postfixed p e => by simp only [Expr.bracketed, Expr.denote, Expr.bracketed_denote c e]
  | .paren g e => by simp only [Expr.bracketed, Expr.denote, Expr.bracketed_denote c e]
  | .call f g args => by simp only [Expr.bracketed, Expr.denote, Args.bracketed_denote c args]
  | .bin o l r => by simp only [Expr.bracketed, Expr.denote, Expr.bracketed_denote c l, Expr.bracketed_denote c r]
theorem Args.bracketed_denote (c : Ctx N) : ∀ a : Args N, a.bracketed.denote c = a.denote c
  | .one e => by simp only [Args.bracketed, Args.denote, Expr.bracketed_denote c e]
  | .more e rest => by simp only [Args.bracketed, Args.denote, Expr.bracketed_denote c e, Args.bracketed_denote c rest]
end

mutual
theorem Expr.starred_denote (c : Ctx N) : ∀ e : Expr N, e.starred.denote c = e.denote c
  | .imp l r => by simp only [Expr.starred, Expr.denote, Expr.starred_denote c l, Expr.starred_denote c r]
  | .atom a => rfl
  | .signed u a => rfl
  | .prefixed u e => by simp only [Expr.starred, Expr.denote, Expr.starred_denote c e]
  | .postfixed p e => by simp only [Expr.starred, Expr.denote, Expr.starred_denote c e]
  | .paren g e => by simp only [Expr.starred, Expr.denote, Expr.starred_denote c e]
  | .call f g args => by simp only [Expr.starred, Expr.denote, Args.starred_denote c args]
  | .bin o l r => by simp only [Expr.starred, Expr.denote, Expr.starred_denote c l, Expr.starred_denote c r]
theorem Args.starred_denote (c : Ctx N) : ∀ a : Args N, a.starred.denote c = a.denote c
  | .one e => by simp only [Args.starred, Args.denote, Expr.starred_denote c e]
  | .more e rest => by simp only [Args.starred, Args.denote, Expr.starred_denote c e, Args.starred_denote c rest]
end

theorem Expr.bracketed_right (e : Expr N) : ∀ a ∈ e.bracketed.rightSpine, a ∈ e.rightSpine := by
  induction e using Expr.rec (motive_2 := fun _ => True) with
  | bin o l r _ ih =>
    intro a ha
    simp only [Expr.bracketed, Expr.rightSpine, List.mem_append, List.mem_singleton] at ha ⊢
    exact ha.imp (ih a) id
  | prefixed u e ih =>
    intro a ha
    simp only [Expr.bracketed, Expr.rightSpine, List.mem_append, List.mem_singleton] at ha ⊢
    exact ha.imp (ih a) id
  | one => trivial
  | more => trivial
  | _ => simp [Expr.bracketed, Expr.rightSpine]

theorem Expr.bracketed_left (e : Expr N) : ∀ a ∈ e.bracketed.leftSpine, a ∈ e.leftSpine := by
  induction e using Expr.rec (motive_2 := fun _ => True) with
  | bin o l r ih _ =>
    intro a ha
    simp only [Expr.bracketed, Expr.leftSpine, List.mem_append, List.mem_singleton] at ha ⊢
    exact ha.imp (ih a) id
  | one => trivial
  | more => trivial
  | _ => simp [Expr.bracketed, Expr.leftSpine]

theorem Expr.bracketed_starts (e : Expr N) : e.bracketed.startsWithAtom → e.startsWithAtom := by
  induction e using Expr.rec (motive_2 := fun _ => True) with
  | bin o l r ih _ => exact ih
  | postfixed p e ih => exact ih
  | one => trivial
  | more => trivial
  | _ => simp [Expr.bracketed, Expr.startsWithAtom]

theorem Expr.primary_left {e : Expr N} (h : e.impLeft) : e.rightSpine = [] ∧ e.leftSpine = [] ∧ e.bracketed.rightSpine = [] := by
  cases e <;> simp_all [Expr.impLeft, Expr.rightSpine, Expr.leftSpine, Expr.bracketed]

mutual
theorem Expr.bracketed_wf (c : Ctx N) (hs : (c.getBinary ['*']).isSome) : ∀ e : Expr N, e.WF c → e.bracketed.WF c
  | .imp l r, h => by
    obtain ⟨_, hl, hr, hb, h1, h2⟩ := h
    refine ⟨Option.isSome_iff_exists.1 hs, ?_, ?_, Expr.bracketed_wf c hs l h1, Expr.bracketed_wf c hs r h2⟩
    · intro a ha
      rw [(Expr.primary_left hl).2.2] at ha
      cases ha
    · exact fun b h => hb b (Expr.bracketed_left r b h)
  | .atom a, h => h
  | .signed u a, h => h
  | .prefixed u e, h => ⟨h.1, fun hs => h.2.1 (Expr.bracketed_starts e hs), Expr.bracketed_wf c hs e h.2.2⟩
  | .postfixed p e, h => ⟨h.1, by have := h.2.1; cases e <;> simp_all [Expr.primary, Expr.bracketed], Expr.bracketed_wf c hs e h.2.2⟩
  | .paren g e, h => Expr.bracketed_wf c hs e h
  | .call f g args, h => ⟨h.1, Args.bracketed_wf c hs args h.2⟩
  | .bin o l r, h => by
    obtain ⟨h0, hl, hr, h1, h2⟩ := h
    exact ⟨h0, fun a ha => hl a (Expr.bracketed_right l a ha), fun b hb => hr b (Expr.bracketed_left r b hb), Expr.bracketed_wf c hs l h1,
      Expr.bracketed_wf c hs r h2⟩
theorem Args.bracketed_wf (c : Ctx N) (hs : (c.getBinary ['*']).isSome) : ∀ a : Args N, a.WF c → a.bracketed.WF c
  | .one e, h => Expr.bracketed_wf c hs e h
  | .more e rest, h => ⟨Expr.bracketed_wf c hs e h.1, Args.bracketed_wf c hs rest h.2⟩
end

theorem Expr.starred_right (e : Expr N) : e.starred.rightSpine = e.rightSpine := by
  induction e using Expr.rec (motive_2 := fun _ => True) with
  | bin o l r _ ih => simp only [Expr.starred, Expr.rightSpine, ih]
  | imp l r _ ih => simp only [Expr.starred, Expr.rightSpine, ih]
  | prefixed u e ih => simp only [Expr.starred, Expr.rightSpine, ih]
  | one => trivial
  | more => trivial
  | _ => simp [Expr.starred, Expr.rightSpine]

theorem Expr.starred_left (c : Ctx N) (e : Expr N) (h : e.WF c) : ∀ a ∈ e.starred.leftSpine, a ∈ e.leftSpine ∨ e.startsWithImp ∧ a = ['*'] := by
  induction e using Expr.rec (motive_2 := fun _ => True) with
  | bin o l r ih _ =>
    intro a ha
    simp only [Expr.starred, Expr.leftSpine, List.mem_append, List.mem_singleton, Expr.startsWithImp] at ha ⊢
    rcases ha with ha | ha
    · exact (ih h.2.2.2.1 a ha).imp .inl id
    · exact .inl (.inr ha)
  | imp l r ih _ =>
    intro a ha
    have hl := h.2.1
    right
    simp only [Expr.starred, Expr.leftSpine, List.mem_append, List.mem_singleton] at ha
    rcases ha with ha | ha
    · cases l <;> simp_all [Expr.impLeft, Expr.starred, Expr.leftSpine]
    · exact ⟨trivial, ha⟩
  | one => trivial
  | more => trivial
  | _ => simp [Expr.starred, Expr.leftSpine]

theorem Expr.starred_starts (e : Expr N) : e.starred.startsWithAtom ↔ e.startsWithAtom := by
  induction e using Expr.rec (motive_2 := fun _ => True) with
  | bin o l r ih _ => exact ih
  | imp l r ih _ => exact ih
  | postfixed p e ih => exact ih
  | one => trivial
  | more => trivial
  | _ => simp [Expr.starred, Expr.startsWithAtom]

mutual
theorem Expr.starred_wf (c : Ctx N) (hs : (c.getBinary ['*']).isSome) : ∀ e : Expr N, e.WF c → e.Loose c → e.starred.WF c
  | .imp l r, h, hl => by
    obtain ⟨_, hi, hr, hb, h1, h2⟩ := h
    refine ⟨Option.isSome_iff_exists.1 hs, ?_, ?_, Expr.starred_wf c hs l h1 hl.2.1, Expr.starred_wf c hs r h2 hl.2.2⟩
    · intro a ha
      rw [Expr.starred_right, (Expr.primary_left hi).1] at ha
      cases ha
    · intro b hbm
      rcases Expr.starred_left c r h2 b hbm with h | ⟨h, rfl⟩
      · exact hb b h
      · exact hl.1 h
  | .atom a, h, _ => h
  | .signed u a, h, _ => h
  | .prefixed u e, h, hl => ⟨h.1, fun hs => h.2.1 ((Expr.starred_starts e).1 hs), Expr.starred_wf c hs e h.2.2 hl⟩
  | .postfixed p e, h, hl => ⟨h.1, by have := h.2.1; cases e <;> simp_all [Expr.primary, Expr.starred], Expr.starred_wf c hs e h.2.2 hl⟩
  | .paren g e, h, hl => Expr.starred_wf c hs e h hl
  | .call f g args, h, hl => ⟨h.1, Args.starred_wf c hs args h.2 hl⟩
  | .bin o l r, h, hl => by
    obtain ⟨h0, hi, hr, h1, h2⟩ := h
    refine ⟨h0, fun a ha => hi a (by rwa [Expr.starred_right] at ha), ?_, Expr.starred_wf c hs l h1 hl.2.1, Expr.starred_wf c hs r h2 hl.2.2⟩
    intro b hbm
    rcases Expr.starred_left c r h2 b hbm with h | ⟨h, rfl⟩
    · exact hr b h
    · exact hl.1 h
theorem Args.starred_wf (c : Ctx N) (hs : (c.getBinary ['*']).isSome) : ∀ a : Args N, a.WF c → a.Loose c → a.starred.WF c
  | .one e, h, hl => Expr.starred_wf c hs e h hl
  | .more e rest, h, hl => ⟨Expr.starred_wf c hs e h.1 hl.1, Args.starred_wf c hs rest h.2 hl.2⟩
end

/-- C122. A product without `*` means the product in parentheses: for every context and every expression, with any number of such products
anywhere, both ways to write it give the same value, error or panic. -/
theorem C122_brackets (c : Ctx N) (hs : (c.getBinary ['*']).isSome) (e : Expr N) (h : e.WF c) :
    evalTokens c e.render = evalTokens c e.bracketed.render := by
  rw [C01_eval_eq_denote c e h, C01_eval_eq_denote c _ (Expr.bracketed_wf c hs e h), Expr.bracketed_denote]

/-- C122. The parentheses can be left out where no operator that groups left of `*` stands directly before the product. -/
theorem C122_sign (c : Ctx N) (hs : (c.getBinary ['*']).isSome) (e : Expr N) (h : e.WF c) (hl : e.Loose c) :
    evalTokens c e.render = evalTokens c e.starred.render := by
  rw [C01_eval_eq_denote c e h, C01_eval_eq_denote c _ (Expr.starred_wf c hs e h hl), Expr.starred_denote]

theorem Expr.bracketed_noSign (e : Expr N) : e.noSign → e.bracketed.noSign := by
  induction e using Expr.rec (motive_2 := fun _ => True) with
  | bin o l r ih _ => exact ih
  | postfixed p e ih => exact ih
  | one => trivial
  | more => trivial
  | _ => simp [Expr.bracketed, Expr.noSign]

mutual
theorem Expr.bracketed_plain (c : Ctx N) : ∀ e : Expr N, e.Plain c → e.bracketed.Plain c
  | .imp l r, h => ⟨Expr.bracketed_plain c l h.1, Expr.bracketed_plain c r h.2⟩
  | .atom _, _ => trivial
  | .signed _ _, _ => trivial
  | .prefixed u e, h => ⟨h.1.imp (Expr.bracketed_noSign e) id, Expr.bracketed_plain c e h.2⟩
  | .postfixed p e, h => ⟨by
      have := h.1
      cases e <;> simp_all [Expr.bracketed], Expr.bracketed_plain c e h.2⟩
  | .paren g e, h => Expr.bracketed_plain c e h
  | .call f g args, h => Args.bracketed_plain c args h
  | .bin o l r, h => ⟨Expr.bracketed_plain c l h.1, Expr.bracketed_plain c r h.2⟩
theorem Args.bracketed_plain (c : Ctx N) : ∀ a : Args N, a.Plain c → a.bracketed.Plain c
  | .one e, h => Expr.bracketed_plain c e h
  | .more e rest, h => ⟨Expr.bracketed_plain c e h.1, Args.bracketed_plain c rest h.2⟩
end

/-- C122, for text: if the words of `s` stand for the expression and those of `s'` for the one with signs and parentheses, both evaluate alike. -/
theorem C122_text (parse : Str → Option N) {rules : List Rule} (hr : SkipsWs rules) (c : Ctx N) (hc : c.config.complexNumber = false) (hl : Lexical c)
    (hs : (c.getBinary ['*']).isSome) (e : Expr N) (h : e.WF c) (hp : e.Plain c) (s s' : Str)
    (h1 : Pairwise2 (StandsFor parse c) (split rules s) e.render) (h2 : Pairwise2 (StandsFor parse c) (split rules s') e.bracketed.render) :
    eval parse (split rules) c s = eval parse (split rules) c s' := by
  rw [(C23_text parse hr c hc hl e h hp s h1).2,
    (C23_text parse hr c hc hl _ (Expr.bracketed_wf c hs e h) (Expr.bracketed_plain c e hp) s' h2).2, Expr.bracketed_denote]

/-- `1 + 2 x ^ 2 - 3 sum(1, 4 (5))` -/
def sampleProducts : Expr Int :=
  .bin ['-'] (.bin ['+'] (.atom (.num 1)) (.imp (.atom (.num 2)) (.bin ['^'] (.atom (.var ['x'])) (.atom (.num 2)))))
    (.imp (.atom (.num 3)) (.call ['s', 'u', 'm'] .parenthesis
      (.more (.atom (.num 1)) (.one (.imp (.atom (.num 4)) (.paren .parenthesis (.atom (.num 5))))))))

/-- It meets the hypotheses of both theorems. -/
example : sampleProducts.WF (Demo.ctx true false) ∧ sampleProducts.Loose (Demo.ctx true false) ∧
    sampleProducts.denote (Demo.ctx true false) = .ok (1 + 2 * 3 ^ 2 - 3 * (1 + 4 * 5)) := by
  refine ⟨?_, ?_, by rfl⟩ <;>
  simp [sampleProducts, Expr.WF, Args.WF, Expr.Loose, Args.Loose, Expr.startsWithImp, Expr.impLeft, Expr.impRight, Expr.leftSpine, Expr.rightSpine, GroupsLeft,
    Demo.ctx, Demo.mul, Demo.pow, Demo.add, Demo.sub]

/-- And of the theorem about text: `1+2x^2-3sum(1,4(5))`, and with signs and parentheses. -/
example : sampleProducts.Plain (Demo.ctx true false) ∧
    Pairwise2 (StandsFor Demo.parse (Demo.ctx true false)) (split defaultRules (str "1+2x^2-3sum(1,4(5))")) sampleProducts.render ∧
    Pairwise2 (StandsFor Demo.parse (Demo.ctx true false)) (split defaultRules (str "1+(2*x^2)-(3*sum(1,(4*(5))))")) sampleProducts.bracketed.render := by
  have h1 : split defaultRules (str "1+2x^2-3sum(1,4(5))") =
      [['1'], ['+'], ['2'], ['x'], ['^'], ['2'], ['-'], ['3'], ['s', 'u', 'm'], ['('], ['1'], [','], ['4'], ['('], ['5'], [')'], [')']] := by
    decide +kernel
  have h2 : split defaultRules (str "1+(2*x^2)-(3*sum(1,(4*(5))))") =
      [['1'], ['+'], ['('], ['2'], ['*'], ['x'], ['^'], ['2'], [')'], ['-'], ['('], ['3'], ['*'], ['s', 'u', 'm'], ['('], ['1'], [','],
        ['('], ['4'], ['*'], ['('], ['5'], [')'], [')'], [')'], [')']] := by decide +kernel
  refine ⟨by simp [sampleProducts, Expr.Plain, Args.Plain], ?_, ?_⟩
  · rw [h1]
    simp only [sampleProducts, Expr.render, Args.render, Atom.token, List.cons_append, List.nil_append]
    repeat' first | exact Pairwise2.nil | refine Pairwise2.cons ?_ ?_
    all_goals simp [StandsFor, NotValue, NoName, Demo.ctx, Demo.parse, Grouping.opn, Grouping.cls]
  · rw [h2]
    simp only [sampleProducts, Expr.bracketed, Args.bracketed, Expr.render, Args.render, Atom.token, List.cons_append, List.nil_append]
    repeat' first | exact Pairwise2.nil | refine Pairwise2.cons ?_ ?_
    all_goals simp [StandsFor, NotValue, NoName, Demo.ctx, Demo.parse, Grouping.opn, Grouping.cls]

/-- C122. The parentheses matter: `8 / 2 (4)` is 1 while `8 / 2 * 4` is 16. -/
theorem C122_sign_counterexample :
    evalTokens (Demo.ctx true false) [.number 8, .binary ['/'], .number 2, .gopen '(', .number 4, .gclose ')'] = .ok 1 ∧
    evalTokens (Demo.ctx true false) [.number 8, .binary ['/'], .number 2, .binary ['*'], .gopen '(', .number 4, .gclose ')'] = .ok 16 := by
  decide +kernel

end Prexel
