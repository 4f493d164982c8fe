import Verif.Lemmas.Placed
/-!
# Tokens have at most one tree
-/

set_option linter.unusedVariables false
set_option linter.unusedSimpArgs false

namespace Prexel
variable {N : Type} {ctx : Ctx N}

open Classical in
/-- The tree with one more operand and operator `k` in front. -/
noncomputable def graftOf (ctx : Ctx N) (o : Str) (k : Expr N → Expr N) : Expr N → Expr N
  | .bin b l r => if ∃ c ∈ (Expr.bin b l r).leftSpine, GroupsLeft ctx o c then .bin b (graftOf ctx o k l) r else k (.bin b l r)
  | e => k e

theorem graftOf_none {o : Str} {k : Expr N → Expr N} {r : Expr N} (h : ∀ b ∈ r.leftSpine, ¬ GroupsLeft ctx o b) : graftOf ctx o k r = k r := by
  cases r with
  | bin b l r =>
    rw [graftOf, if_neg]
    rintro ⟨c, hc, hg⟩
    exact h c hc hg
  | _ => rfl

theorem graftOf_spine {o : Str} {k : Expr N → Expr N} {r : Expr N} (h : ∃ b ∈ r.leftSpine, GroupsLeft ctx o b) :
    (graftOf ctx o k r).rightSpine = r.rightSpine := by
  cases r with
  | bin b l r => rw [graftOf, if_pos h]; rfl
  | _ => simp [Expr.leftSpine] at h

/-- A tree that is no operand and does not begin with a prefix operator has an operand in front. -/
theorem ungraft : ∀ (e : Expr N), e.WF ctx → ¬ e.primary → (∀ u e1, e ≠ .prefixed u e1) →
    ∃ (o : Str) (w : List (Token N)) (k : Expr N → Expr N) (r : Expr N), Front ctx o w k ∧ r.WF ctx ∧ Front.Good k r ∧ e = graftOf ctx o k r ∧
      e.render = w ++ r.render := by
  intro e
  induction e using Expr.rec (motive_2 := fun _ => True) with
  | atom a => intro _ h; exact absurd trivial h
  | signed u a => intro _ h; exact absurd trivial h
  | prefixed u e _ => intro _ _ h; exact absurd rfl (h u e)
  | postfixed p e _ => intro _ h; exact absurd trivial h
  | paren g e _ => intro _ h; exact absurd trivial h
  | call f g args _ => intro _ h; exact absurd trivial h
  | one e _ => trivial
  | more e rest _ _ => trivial
  | imp l r _ _ =>
    intro h _ _
    obtain ⟨hm, hl, hr, hs, wl, wr⟩ := h
    exact ⟨['*'], l.render, .imp l, r, .imp l rfl hm hl wl rfl rfl, wr, (fun x hx => by cases congrFun hx r; exact hr), (graftOf_none hs).symm, rfl⟩
  | bin o l r ihl _ =>
    intro h _ _
    have hwf := h
    obtain ⟨⟨f, hf⟩, hl, hr, wl, wr⟩ := h
    by_cases hp : l.primary
    · exact ⟨o, l.render ++ [.binary o], .bin o l, r, .bin l f hf hp wl rfl rfl, wr, (fun x hx => by cases congrFun hx r), (graftOf_none hr).symm,
        by simp [Expr.render]⟩
    · have hpre : ∀ u e1, l ≠ .prefixed u e1 := by
        rintro u e1 rfl
        obtain ⟨b, hb, -⟩ := hl (.pre u) (by simp [Expr.rightSpine])
        cases hb
      obtain ⟨o', w, k, l1, h1, h2, h3, h4, h5⟩ := ihl wl hp hpre
      have hr' : (Expr.bin o l r).render = w ++ (Expr.bin o l1 r).render := by simp [Expr.render, h5]
      by_cases hex : ∃ c ∈ l1.leftSpine, GroupsLeft ctx o' c
      · have hs : l.rightSpine = l1.rightSpine := by rw [h4]; exact graftOf_spine hex
        refine ⟨o', w, k, .bin o l1 r, h1, ⟨⟨f, hf⟩, by rw [← hs]; exact hl, hr, h2, wr⟩, fun x hx => h3 x hx, ?_, hr'⟩
        rw [graftOf, if_pos, h4]
        obtain ⟨c, hc, hg⟩ := hex
        exact ⟨c, by simp [Expr.leftSpine, hc], hg⟩
      · have hn : ∀ c ∈ l1.leftSpine, ¬ GroupsLeft ctx o' c := fun c hc hg => hex ⟨c, hc, hg⟩
        have hk : l = k l1 := by rw [h4]; exact graftOf_none hn
        have hs : l.rightSpine = l1.rightSpine ++ [.bin o'] := by rw [hk]; exact h1.rightSpine l1
        have hg : GroupsLeft ctx o' o := by
          obtain ⟨b, hb, hg⟩ := hl (.bin o') (by simp [hs])
          cases hb
          exact hg
        refine ⟨o', w, k, .bin o l1 r, h1, ⟨⟨f, hf⟩, fun a ha => hl a (by simp [hs, ha]), hr, h2, wr⟩, fun x hx => h3 x hx, ?_, hr'⟩
        rw [graftOf, if_pos ⟨o, by simp [Expr.leftSpine], hg⟩, h4]

/-! ## Operands -/

theorem head_startsWithAtom : ∀ (e : Expr N) (t : Token N), e.render.head? = some t → t.IsWord → e.startsWithAtom := by
  intro e
  induction e using Expr.rec (motive_2 := fun _ => True) with
  | atom a => intro _ _ _; trivial
  | signed u a => intro t ht h; cases ht; exact h
  | prefixed u e _ => intro t ht h; cases ht; exact h
  | postfixed p e ih => intro t ht h; rw [Expr.render, head_append (render_ne e)] at ht; exact ih t ht h
  | paren g e _ => intro t ht h; cases ht; exact h
  | call f g args _ => intro t ht h; cases ht; exact h
  | bin o l r ihl _ => intro t ht h; rw [Expr.render, head_append (render_ne l)] at ht; exact ihl t ht h
  | imp l r ihl _ => intro t ht h; rw [Expr.render, head_append (render_ne l)] at ht; exact ihl t ht h
  | one e _ => trivial
  | more e rest _ _ => trivial

/-- Without postfix operators. -/
def Expr.core : Expr N → Prop
  | .atom _ => True
  | .signed _ _ => True
  | .paren _ _ => True
  | .call _ _ _ => True
  | _ => False

/-- Postfix operators behind an operand. -/
def Expr.post (c : Expr N) (us : List Str) : Expr N := us.foldl (fun x u => .postfixed u x) c

theorem post_render (us : List Str) : ∀ c : Expr N, (c.post us).render = c.render ++ us.map .unary := by
  induction us with
  | nil => intro c; simp [Expr.post]
  | cons u us ih => intro c; have := ih (.postfixed u c); simp only [Expr.post, List.foldl_cons] at this ⊢; rw [this]; simp [Expr.render]

theorem peel : ∀ (x : Expr N), x.primary → x.WF ctx → ∃ (c : Expr N) (us : List Str), c.core ∧ c.WF ctx ∧ x = c.post us := by
  intro x
  induction x using Expr.rec (motive_2 := fun _ => True) with
  | atom a => intro _ hw; exact ⟨.atom a, [], (show Expr.core (.atom a) from trivial), hw, rfl⟩
  | signed u a => intro _ hw; exact ⟨.signed u a, [], (show Expr.core (.signed u a) from trivial), hw, rfl⟩
  | paren g e _ => intro _ hw; exact ⟨.paren g e, [], (show Expr.core (.paren g e) from trivial), hw, rfl⟩
  | call f g args _ => intro _ hw; exact ⟨.call f g args, [], (show Expr.core (.call f g args) from trivial), hw, rfl⟩
  | postfixed p e ih =>
    intro _ hw
    obtain ⟨c, us, h1, h2, h3⟩ := ih hw.2.1 hw.2.2
    exact ⟨c, us ++ [p], h1, h2, by simp [Expr.post, h3]⟩
  | prefixed u e _ => intro h; exact h.elim
  | bin o l r _ _ => intro h; exact h.elim
  | imp l r _ _ => intro h; exact h.elim
  | one e _ => trivial
  | more e rest _ _ => trivial

/-- The list does not begin with a unary operator. -/
def NoUnary (ts : List (Token N)) : Prop := ∀ u r, ts ≠ .unary u :: r

theorem unaries_unique : ∀ (us us' : List Str) (r r' : List (Token N)), NoUnary r → NoUnary r' →
    us.map Token.unary ++ r = us'.map Token.unary ++ r' → us = us' ∧ r = r' := by
  intro us
  induction us with
  | nil =>
    intro us' r r' h1 h2 h
    cases us' with
    | nil => exact ⟨rfl, h⟩
    | cons u us' => exact absurd h (h1 _ _)
  | cons u us ih =>
    intro us' r r' h1 h2 h
    cases us' with
    | nil => exact absurd h.symm (h2 _ _)
    | cons u' us' =>
      simp only [List.map_cons, List.cons_append, List.cons.injEq, Token.unary.injEq] at h
      obtain ⟨h3, h4⟩ := ih us' r r' h1 h2 h.2
      exact ⟨by rw [h.1, h3], h4⟩

theorem token_inj {a b : Atom N} (h : a.token = b.token) : a = b := by
  cases a <;> cases b <;> simp_all [Atom.token]

theorem opn_inj {g g' : Grouping} (h : g.opn = g'.opn) : g = g' := by
  cases g <;> cases g' <;> first | rfl | (exact absurd h (by decide))

/-! ## Uniqueness -/

/-- The two statements for lists of a given length. -/
structure Unique (ctx : Ctx N) (n : Nat) : Prop where
  expr : ∀ (e e' : Expr N) (r r' : List (Token N)), e.render.length = n → e.WF ctx → e'.WF ctx → AtEnd r → AtEnd r' → e.render ++ r = e'.render ++ r' →
    e = e' ∧ r = r'
  args : ∀ (a a' : Args N) (c c' : Char) (r r' : List (Token N)), a.render.length = n → a.WF ctx → a'.WF ctx →
    a.render ++ .gclose c :: r = a'.render ++ .gclose c' :: r' → a = a' ∧ c = c' ∧ r = r'

theorem core_unique {n : Nat} (ih : ∀ m < n, Unique ctx m) {x x' : Expr N} (hx : x.core) (hx' : x'.core) (wx : x.WF ctx) (wx' : x'.WF ctx)
    (hn : x.render.length ≤ n) {r r' : List (Token N)} (h : x.render ++ r = x'.render ++ r') : x = x' ∧ r = r' := by
  cases x with
  | atom a =>
    cases x' with
    | atom b => simp only [Expr.render, List.cons_append, List.nil_append, List.cons.injEq] at h; exact ⟨by rw [token_inj h.1], h.2⟩
    | signed u b => simp only [Expr.render, List.cons_append, List.cons.injEq] at h; cases a <;> cases h.1
    | paren g e => simp only [Expr.render, List.cons_append, List.cons.injEq] at h; cases a <;> cases h.1
    | call f g e => simp only [Expr.render, List.cons_append, List.cons.injEq] at h; cases a <;> cases h.1
    | _ => exact hx'.elim
  | signed u a =>
    cases x' with
    | atom b => simp only [Expr.render, List.cons_append, List.cons.injEq] at h; cases b <;> cases h.1
    | signed u' b =>
      simp only [Expr.render, List.cons_append, List.nil_append, List.cons.injEq, Token.unary.injEq] at h
      exact ⟨by rw [h.1, token_inj h.2.1], h.2.2⟩
    | paren g e => simp [Expr.render] at h
    | call f g e => simp [Expr.render] at h
    | _ => exact hx'.elim
  | paren g e =>
    cases x' with
    | atom b => simp only [Expr.render, List.cons_append, List.cons.injEq] at h; cases b <;> cases h.1
    | signed u b => simp [Expr.render] at h
    | paren g' e' =>
      simp only [Expr.render, List.cons_append, List.append_assoc, List.nil_append, List.cons.injEq, Token.gopen.injEq] at h
      obtain ⟨h1, h2⟩ := (ih e.render.length (by simp [Expr.render] at hn; omega)).expr e e' _ _ rfl wx wx' (.inr (.inl ⟨_, _, rfl⟩)) (.inr (.inl ⟨_, _, rfl⟩)) h.2
      simp only [List.cons.injEq] at h2
      exact ⟨by rw [opn_inj h.1, h1], h2.2⟩
    | call f g' e' => simp [Expr.render] at h
    | _ => exact hx'.elim
  | call f g a =>
    cases x' with
    | atom b => simp only [Expr.render, List.cons_append, List.cons.injEq] at h; cases b <;> cases h.1
    | signed u b => simp [Expr.render] at h
    | paren g' e' => simp [Expr.render] at h
    | call f' g' a' =>
      simp only [Expr.render, List.cons_append, List.append_assoc, List.nil_append, List.cons.injEq, Token.gopen.injEq, Token.function.injEq] at h
      obtain ⟨h1, h2, h3⟩ := (ih a.render.length (by simp [Expr.render] at hn; omega)).args a a' _ _ _ _ rfl wx.2 wx'.2 h.2.2
      exact ⟨by rw [opn_inj h.2.1, h1, h.1], h3⟩
    | _ => exact hx'.elim
  | _ => exact hx.elim

theorem primary_unique {n : Nat} (ih : ∀ m < n, Unique ctx m) {x x' : Expr N} (hx : x.primary) (hx' : x'.primary) (wx : x.WF ctx) (wx' : x'.WF ctx)
    (hn : x.render.length ≤ n) {r r' : List (Token N)} (hr : NoUnary r) (hr' : NoUnary r') (h : x.render ++ r = x'.render ++ r') : x = x' ∧ r = r' := by
  obtain ⟨c, us, h1, h2, rfl⟩ := peel x hx wx
  obtain ⟨c', us', h3, h4, rfl⟩ := peel x' hx' wx'
  rw [post_render] at h hn
  rw [post_render, List.append_assoc, List.append_assoc] at h
  obtain ⟨rfl, h5⟩ := core_unique ih h1 h3 h2 h4 (by simp at hn; omega) h
  obtain ⟨rfl, h6⟩ := unaries_unique us us' r r' hr hr' h5
  exact ⟨rfl, h6⟩

/-- What a tree begins with. -/
inductive Begins (ctx : Ctx N) (e : Expr N) : Prop
  | pre (u : Str) (e1 : Expr N) (h : e = .prefixed u e1)
  | operand (h : e.primary)
  | bin (x r : Expr N) (o : Str) (hx : x.primary) (wx : x.WF ctx) (wr : r.WF ctx) (h : e = graftOf ctx o (.bin o x) r)
      (hr : e.render = x.render ++ .binary o :: r.render)
  | imp (x r : Expr N) (hx : x.impLeft) (wx : x.WF ctx) (wr : r.WF ctx) (hi : r.impRight x.endsWithNumber) (h : e = graftOf ctx ['*'] (.imp x) r)
      (hr : e.render = x.render ++ r.render)

theorem begins {e : Expr N} (h : e.WF ctx) : Begins ctx e := by
  by_cases hp : e.primary
  · exact .operand hp
  · by_cases hu : ∃ u e1, e = .prefixed u e1
    · obtain ⟨u, e1, h⟩ := hu
      exact .pre u e1 h
    · obtain ⟨o, w, k, r, h1, h2, h3, h4, h5⟩ := ungraft e h hp fun u e1 he => hu ⟨u, e1, he⟩
      cases h1 with
      | bin x f hf hx hw hk hr =>
        subst hk hr
        exact .bin x r o hx hw h2 h4 (by rw [h5]; simp)
      | imp x ho hm hx hw hk hr =>
        subst hk hr ho
        exact .imp x r hx hw h2 (h3 x rfl) h4 h5

theorem atEnd_noUnary {r : List (Token N)} (h : AtEnd r) : NoUnary r := by
  rintro u t rfl
  rcases h with h | ⟨c, r, h⟩ | ⟨r, h⟩ <;> cases h

/-- The tokens of a right factor begin neither with a unary nor with a binary operator, and no group ends there. -/
theorem factor_head {x r : Expr N} (wr : r.WF ctx) (hi : r.impRight x.endsWithNumber) (t : List (Token N)) :
    NoUnary (r.render ++ t) ∧ (∀ o t', r.render ++ t ≠ .binary o :: t') ∧ ¬ AtEnd (r.render ++ t) := by
  obtain ⟨y, hy⟩ := head_some r
  have hb := first_begins r wr y hy
  have hu := (impRight_first_token _ r hi y hy).1
  have hh : (r.render ++ t).head? = some y := by rw [head_append (render_ne r), hy]
  refine ⟨fun u t' h => ?_, fun o t' h => ?_, fun h => ?_⟩
  · rw [h] at hh; cases hh; exact hu u rfl
  · rw [h] at hh; cases hh; exact hb
  · rcases h with h | ⟨c, r, h⟩ | ⟨r, h⟩ <;> rw [h] at hh <;> cases hh <;> exact hb

theorem not_word_head {u : Str} {e1 x : Expr N} (hs : ¬ e1.startsWithAtom) (hx : x.primary) (wx : x.WF ctx) {r t : List (Token N)}
    (h : Token.unary u :: e1.render ++ r = x.render ++ t) : False := by
  obtain ⟨c, us, h1, h2, rfl⟩ := peel x hx wx
  rw [post_render] at h
  cases c with
  | atom a => cases a <;> simp [Expr.render, Atom.token] at h
  | signed v a =>
    simp only [Expr.render, List.cons_append, List.nil_append, List.cons.injEq] at h
    refine hs (head_startsWithAtom e1 a.token ?_ a.token_word)
    rw [← head_append (m := r) (render_ne e1), h.2]
    rfl
  | paren g e => simp [Expr.render] at h
  | call f g a => simp [Expr.render] at h
  | _ => exact h1.elim

theorem unique (ctx : Ctx N) (n : Nat) : Unique ctx n := by
  induction n using Nat.strongRecOn with
  | ind n ih =>
  have expr : ∀ (e e' : Expr N) (r r' : List (Token N)), e.render.length = n → e.WF ctx → e'.WF ctx → AtEnd r → AtEnd r' →
      e.render ++ r = e'.render ++ r' → e = e' ∧ r = r' := by
    intro e e' r r' hn we we' hr hr' h
    have nr := atEnd_noUnary hr
    have nr' := atEnd_noUnary hr'
    cases begins we with
    | pre u e1 he =>
      subst he
      cases begins we' with
      | pre u' e1' he' =>
        subst he'
        simp only [Expr.render, List.cons_append, List.cons.injEq, Token.unary.injEq] at h
        obtain ⟨h1, h2⟩ := (ih e1.render.length (by simp [Expr.render] at hn; omega)).expr e1 e1' r r' rfl we.2.2 we'.2.2 hr hr' h.2
        exact ⟨by rw [h.1, h1], h2⟩
      | operand hp' => exact (not_word_head we.2.1 hp' we' h).elim
      | bin x s o hx wx wr he hre => rw [hre, List.append_assoc] at h; exact (not_word_head we.2.1 hx wx h).elim
      | imp x s hx wx wr hi he hre => rw [hre, List.append_assoc] at h; exact (not_word_head we.2.1 (impLeft_primary hx) wx h).elim
    | operand hp =>
      cases begins we' with
      | pre u e1 he => subst he; exact (not_word_head we'.2.1 hp we h.symm).elim
      | operand hp' => exact primary_unique ih hp hp' we we' (by omega) nr nr' h
      | bin x s o hx wx wr he hre =>
        rw [hre, List.append_assoc] at h
        obtain ⟨-, h2⟩ := primary_unique ih hp hx we wx (by omega) nr (fun u t => by simp) h
        rcases hr with rfl | ⟨c, r, rfl⟩ | ⟨r, rfl⟩ <;> simp at h2
      | imp x s hx wx wr hi he hre =>
        rw [hre, List.append_assoc] at h
        obtain ⟨f1, -, f3⟩ := factor_head wr hi r'
        obtain ⟨-, h2⟩ := primary_unique ih hp (impLeft_primary hx) we wx (by omega) nr f1 h
        rw [h2] at hr
        exact absurd hr f3
    | bin x s o hx wx wr he hre =>
      have hlen : x.render.length ≤ n := by rw [← hn, hre]; simp
      have hlen' : s.render.length < n := by rw [← hn, hre]; simp; omega
      rw [hre, List.append_assoc] at h
      cases begins we' with
      | pre u e1 he' => subst he'; exact (not_word_head we'.2.1 hx wx h.symm).elim
      | operand hp' =>
        obtain ⟨-, h2⟩ := primary_unique ih hx hp' wx we' hlen (fun u t => by simp) nr' h
        rcases hr' with rfl | ⟨c, r, rfl⟩ | ⟨r, rfl⟩ <;> simp at h2
      | bin x' s' o' hx' wx' wr' he' hre' =>
        rw [hre', List.append_assoc] at h
        obtain ⟨h1, h2⟩ := primary_unique ih hx hx' wx wx' hlen (fun u t => by simp) (fun u t => by simp) h
        simp only [List.cons_append, List.cons.injEq, Token.binary.injEq] at h2
        obtain ⟨h3, h4⟩ := (ih _ hlen').expr s s' r r' rfl wr wr' hr hr' h2.2
        exact ⟨by rw [he, he', h1, h2.1, h3], h4⟩
      | imp x' s' hx' wx' wr' hi' he' hre' =>
        rw [hre', List.append_assoc] at h
        obtain ⟨f1, f2, -⟩ := factor_head wr' hi' r'
        obtain ⟨-, h2⟩ := primary_unique ih hx (impLeft_primary hx') wx wx' hlen (fun u t => by simp) f1 h
        exact absurd h2.symm (f2 _ _)
    | imp x s hx wx wr hi he hre =>
      have hlen : x.render.length ≤ n := by rw [← hn, hre]; simp
      have hlen' : s.render.length < n := by
        have := List.length_pos_iff.2 (render_ne x)
        rw [← hn, hre]; simp; omega
      rw [hre, List.append_assoc] at h
      obtain ⟨f1, f2, f3⟩ := factor_head wr hi r
      cases begins we' with
      | pre u e1 he' => subst he'; exact (not_word_head we'.2.1 (impLeft_primary hx) wx h.symm).elim
      | operand hp' =>
        obtain ⟨-, h2⟩ := primary_unique ih (impLeft_primary hx) hp' wx we' hlen f1 nr' h
        rw [← h2] at hr'
        exact absurd hr' f3
      | bin x' s' o' hx' wx' wr' he' hre' =>
        rw [hre', List.append_assoc] at h
        obtain ⟨-, h2⟩ := primary_unique ih (impLeft_primary hx) hx' wx wx' hlen f1 (fun u t => by simp) h
        exact absurd h2 (f2 _ _)
      | imp x' s' hx' wx' wr' hi' he' hre' =>
        rw [hre', List.append_assoc] at h
        obtain ⟨f1', -, -⟩ := factor_head wr' hi' r'
        obtain ⟨h1, h2⟩ := primary_unique ih (impLeft_primary hx) (impLeft_primary hx') wx wx' hlen f1 f1' h
        obtain ⟨h3, h4⟩ := (ih _ hlen').expr s s' r r' rfl wr wr' hr hr' h2
        exact ⟨by rw [he, he', h1, h3], h4⟩
  refine ⟨expr, ?_⟩
  intro a a' c c' r r' hn wa wa' h
  cases a with
  | one e =>
    cases a' with
    | one e' =>
      obtain ⟨h1, h2⟩ := expr e e' _ _ hn wa wa' (.inr (.inl ⟨_, _, rfl⟩)) (.inr (.inl ⟨_, _, rfl⟩)) h
      simp only [List.cons.injEq, Token.gclose.injEq] at h2
      exact ⟨by rw [h1], h2.1, h2.2⟩
    | more e' b' =>
      simp only [Args.render, List.append_assoc] at h
      obtain ⟨-, h2⟩ := expr e e' _ _ hn wa wa'.1 (.inr (.inl ⟨_, _, rfl⟩)) (.inr (.inr ⟨_, rfl⟩)) h
      simp at h2
  | more e b =>
    have hlen : e.render.length < n := by rw [← hn]; simp [Args.render]
    have hlen' : b.render.length < n := by rw [← hn]; simp [Args.render]; omega
    cases a' with
    | one e' =>
      simp only [Args.render, List.append_assoc] at h
      obtain ⟨-, h2⟩ := (ih _ hlen).expr e e' _ _ rfl wa.1 wa' (.inr (.inr ⟨_, rfl⟩)) (.inr (.inl ⟨_, _, rfl⟩)) h
      simp at h2
    | more e' b' =>
      simp only [Args.render, List.append_assoc] at h
      obtain ⟨h1, h2⟩ := (ih _ hlen).expr e e' _ _ rfl wa.1 wa'.1 (.inr (.inr ⟨_, rfl⟩)) (.inr (.inr ⟨_, rfl⟩)) h
      simp only [List.cons_append, List.cons.injEq, true_and] at h2
      obtain ⟨h3, h4, h5⟩ := (ih _ hlen').args b b' c c' r r' rfl wa.2 wa'.2 h2
      exact ⟨by rw [h1, h3], h4, h5⟩

/-- Tokens have at most one tree. -/
theorem tree_unique {e e' : Expr N} (h : e.WF ctx) (h' : e'.WF ctx) (hr : e.render = e'.render) : e = e' :=
  ((unique ctx _).expr e e' [] [] rfl h h' (.inl rfl) (.inl rfl) (by rw [hr])).1

end Prexel
