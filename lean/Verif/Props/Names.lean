import Verif.Spec.Matched
import Verif.Props.Renaming
import Verif.Props.Evaluator
/-!
# C176: names are arbitrary
-/

namespace Prexel
variable {N : Type}

namespace Names

/-- The name in a token. -/
def name : Token N → Str
  | .variable_ s | .constant s | .function s | .binary s | .unary s => s
  | _ => []

/-- The token with another name. -/
def tag (P : Str) : Token N → Token N
  | .variable_ s => .variable_ (P ++ s)
  | .constant s => .constant (P ++ s)
  | .function s => .function (P ++ s)
  | .binary s => .binary (P ++ s)
  | .unary s => .unary (P ++ s)
  | t => t

/-- Names that begin with `P` have the meaning of the rest in `c2`, all others the meaning in `c1`. -/
def pick {α : Type} (P : Str) (f1 f2 : Str → α) (s : Str) : α := if s.take P.length = P then f2 (s.drop P.length) else f1 s

def both (P : Str) (c1 c2 : Ctx N) : Ctx N where
  config := c2.config
  getVariable := pick P c1.getVariable c2.getVariable
  getConstant := pick P c1.getConstant c2.getConstant
  getFunction := pick P c1.getFunction c2.getFunction
  getUnary := pick P c1.getUnary c2.getUnary
  getBinary := pick P c1.getBinary c2.getBinary

theorem pick_tag {α : Type} (P : Str) (f1 f2 : Str → α) (s : Str) : pick P f1 f2 (P ++ s) = f2 s := by
  simp [pick]

theorem pick_short {α : Type} {P : Str} (f1 f2 : Str → α) {s : Str} (h : s.length < P.length) : pick P f1 f2 s = f1 s := by
  refine if_neg fun hc => ?_
  have := congrArg List.length hc
  rw [List.length_take] at this
  omega

theorem bound (ts : List (Token N)) : ∃ L, ∀ t ∈ ts, (name t).length ≤ L := by
  induction ts with
  | nil => exact ⟨0, fun _ h => by cases h⟩
  | cons t ts ih =>
    obtain ⟨L, h⟩ := ih
    refine ⟨max L (name t).length, fun u hu => ?_⟩
    rcases List.mem_cons.mp hu with rfl | hu
    · exact Nat.le_max_right _ _
    · exact Nat.le_trans (h u hu) (Nat.le_max_left _ _)

theorem pairs {α β γ : Type} {R : α → β → Prop} {S : α → γ → Prop} (f : β → γ) {xs : List α} {ys : List β} (h : Pairwise2 R xs ys)
    (hf : ∀ x ∈ xs, ∀ y, R x y → S x (f y)) : Pairwise2 S xs (ys.map f) := by
  induction h with
  | nil => exact .nil
  | cons h _ ih => exact .cons (hf _ List.mem_cons_self _ h) (ih fun x hx => hf x (List.mem_cons_of_mem _ hx))

end Names

open Names

/-- C176. What an expression evaluates to depends on the meaning of the names in it only, not on the names: token by token, in two contexts with
the same configuration. -/
theorem C176_names (c1 c2 : Ctx N) (hc : c1.config = c2.config) (hmul : c1.config.implicitMul = true → c1.getBinary ['*'] = c2.getBinary ['*'])
    (ts us : List (Token N)) (h : Pairwise2 (Matched c1 c2) ts us) : evalTokens c1 ts = evalTokens c2 us := by
  obtain ⟨L1, h1⟩ := bound ts
  obtain ⟨L2, h2⟩ := bound us
  let P : Str := List.replicate (L1 + L2 + 2) 'p'
  have hP : P.length = L1 + L2 + 2 := List.length_replicate
  have star : ∀ {α : Type} (f1 f2 : Str → α), pick P f1 f2 ['*'] = f1 ['*'] := fun f1 f2 => pick_short f1 f2 (by rw [hP]; simp)
  have s1 : ∀ t ∈ ts, (name t).length < P.length := fun t ht => by have := h1 t ht; omega
  have s2 : ∀ t ∈ us, (name t).length < P.length := fun t ht => by have := h2 t ht; omega
  -- in a context with the names of both
  have e1 : evalTokens c1 ts = evalTokens (both P c1 c2) ts := by
    refine (C09_frame c1 (both P c1 c2) hc (fun _ => (star c1.getBinary c2.getBinary).symm) ts fun t ht => ?_).2
    have := s1 t ht
    cases t <;> first | exact trivial | exact (pick_short _ _ this).symm
  have e2 : evalTokens (both P c1 c2) ts = evalTokens (both P c1 c2) (us.map (tag P)) := by
    refine C117_tokens _ _ _ (pairs _ h fun t ht u hm => ?_)
    have := s1 t ht
    cases hm <;> constructor
    all_goals
      rename_i h
      exact (pick_short _ _ this).trans (h.trans (pick_tag P _ _ _).symm)
  have e3 : evalTokens (both P c1 c2) (us.map (tag P)) = evalTokens (both P c2 c2) (us.map (tag P)) := by
    refine (C09_frame (both P c1 c2) (both P c2 c2) rfl (fun hm => ?_) _ fun t ht => ?_).2
    · have hm : c2.config.implicitMul = true := hm
      exact (star c1.getBinary c2.getBinary).trans ((hmul (by rw [hc]; exact hm)).trans (star c2.getBinary c2.getBinary).symm)
    · obtain ⟨u, -, rfl⟩ := List.mem_map.mp ht
      cases u <;> first | exact trivial | exact (pick_tag P _ _ _).trans (pick_tag P _ _ _).symm
  have e4 : evalTokens (both P c2 c2) us = evalTokens (both P c2 c2) (us.map (tag P)) := by
    have self : Pairwise2 (fun t u : Token N => u = t) us us := by
      clear h h2 s2 e1 e2 e3
      induction us with
      | nil => exact .nil
      | cons t us ih => exact .cons rfl ih
    refine C117_tokens _ _ _ (pairs _ self fun t ht u hu => ?_)
    subst hu
    have := s2 _ ht
    cases u <;> constructor
    all_goals exact (pick_short _ _ this).trans (pick_tag P _ _ _).symm
  have e5 : evalTokens c2 us = evalTokens (both P c2 c2) us := by
    refine (C09_frame c2 (both P c2 c2) rfl (fun _ => (star c2.getBinary c2.getBinary).symm) us fun t ht => ?_).2
    have := s2 t ht
    cases t <;> first | exact trivial | exact (pick_short _ _ this).symm
  rw [e1, e2, e3, ← e4, ← e5]

/-- C176 for a variable: after the same history, it does not matter under which free name a value is set, if the name is written accordingly. -/
theorem C176_variable (K : Keys) (debug : Bool) (config : Config) (os : List (Op N)) (x y : Str) (v : N) (a b : Option N)
    (hx : (((Context.withConfig config).runAll K debug os).run K debug (.setVariable x v)).1 = .ok a)
    (hy : (((Context.withConfig config).runAll K debug os).run K debug (.setVariable y v)).1 = .ok b)
    (ts us : List (Token N)) (h : Pairwise2 (VariableRenamed x y) ts us) :
    evalTokens ((((Context.withConfig config).runAll K debug os).run K debug (.setVariable x v)).2.view K) ts =
      evalTokens ((((Context.withConfig config).runAll K debug os).run K debug (.setVariable y v)).2.view K) us := by
  obtain ⟨-, x1, x2, x3, x4, x5, x6⟩ := C24_set_variable K debug config os x v a hx
  obtain ⟨-, y1, y2, y3, y4, y5, y6⟩ := C24_set_variable K debug config os y v b hy
  generalize hb : ((Context.withConfig config).runAll K debug os) = c at *
  refine C176_names _ _ ?_ (fun _ => by rw [x6, y6]) ts us ?_
  · have keep : ∀ z, ((c.run K debug (.setVariable z v)).2.view K).config = (c.view K).config := by
      intro z
      simp only [Context.run]
      split
      · rfl
      · rfl
      · split <;> rfl
    rw [keep, keep]
  have refl : ∀ t : Token N, t ≠ .variable_ x → t ≠ .variable_ y →
      Matched ((c.run K debug (.setVariable x v)).2.view K) ((c.run K debug (.setVariable y v)).2.view K) t t := by
    intro t h1 h2
    cases t <;> constructor
    · rename_i s
      rw [x2 s (fun h => h1 (by rw [h])), y2 s (fun h => h2 (by rw [h]))]
    · rw [x3, y3]
    · rw [x4, y4]
    · rw [x6, y6]
    · rw [x5, y5]
  induction h with
  | nil => exact .nil
  | cons h _ ih =>
    refine .cons ?_ ih
    rcases h with ⟨rfl, rfl⟩ | ⟨rfl, h1, h2⟩
    · exact .variable_ (by rw [x1, y1])
    · exact refl _ h1 h2

/-- The hypotheses are met: `2 * (rate + x)` with `rate` set to 5 and `2 * (tax + x)` with `tax` set to 5. -/
example : let K := Keys.byEq demoLowercase
    let c : Context Int := (Context.withConfig Config.new).runAll K true sampleHistory
    (c.run K true (.setVariable (str "rate") 5)).1 = .ok none ∧ (c.run K true (.setVariable (str "tax") 5)).1 = .ok none ∧
    Pairwise2 (VariableRenamed (N := Int) (str "rate") (str "tax"))
      [.number 2, .binary (str "*"), .gopen '(', .variable_ (str "rate"), .binary (str "+"), .variable_ (str "x"), .gclose ')']
      [.number 2, .binary (str "*"), .gopen '(', .variable_ (str "tax"), .binary (str "+"), .variable_ (str "x"), .gclose ')'] := by
  refine ⟨by decide, by decide, ?_⟩
  have same : ∀ t : Token Int, t ≠ .variable_ (str "rate") → t ≠ .variable_ (str "tax") → VariableRenamed (str "rate") (str "tax") t t :=
    fun t h1 h2 => .inr ⟨rfl, h1, h2⟩
  exact .cons (same _ (by decide) (by decide)) (.cons (same _ (by decide) (by decide)) (.cons (same _ (by decide) (by decide))
    (.cons (.inl ⟨rfl, rfl⟩) (.cons (same _ (by decide) (by decide)) (.cons (same _ (by decide) (by decide))
      (.cons (same _ (by decide) (by decide)) .nil))))))

end Prexel
