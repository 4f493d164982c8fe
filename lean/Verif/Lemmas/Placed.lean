import Verif.Spec.Placed
import Verif.Lemmas.Chain
/-!
# Well placed tokens are the tokens of a tree
-/

set_option linter.unusedVariables false
set_option linter.unusedSimpArgs false

namespace Prexel
variable {N : Type} {ctx : Ctx N}

/-! ## Putting one more operand in front -/

/-- `k r` is an operator `o` with the right operand `r` and a left operand that is no operator. -/
inductive Front (ctx : Ctx N) (o : Str) (w : List (Token N)) (k : Expr N → Expr N) : Prop
  | bin (x : Expr N) (f : BinFn N) (hf : ctx.getBinary o = some f) (hx : x.primary) (hw : x.WF ctx) (hk : k = .bin o x) (hr : w = x.render ++ [.binary o])
  | imp (x : Expr N) (ho : o = ['*']) (hm : ctx.config.implicitMul = true) (hx : x.impLeft) (hw : x.WF ctx) (hk : k = .imp x) (hr : w = x.render)

theorem impLeft_primary {x : Expr N} (h : x.impLeft) : x.primary := by
  cases x with
  | atom a => trivial
  | signed u a => trivial
  | paren g e => trivial
  | call f g a => trivial
  | _ => exact absurd h (by simp [Expr.impLeft])

theorem Front.render {o : Str} {w : List (Token N)} {k : Expr N → Expr N} (h : Front ctx o w k) (r : Expr N) : (k r).render = w ++ r.render := by
  cases h with
  | bin x f hf hx hw hk hr => subst hk hr; simp [Expr.render]
  | imp x ho hm hx hw hk hr => subst hk hr; simp [Expr.render]

theorem Front.rightSpine {o : Str} {w : List (Token N)} {k : Expr N → Expr N} (h : Front ctx o w k) (r : Expr N) :
    (k r).rightSpine = r.rightSpine ++ [.bin o] := by
  cases h with
  | bin x f hf hx hw hk hr => subst hk hr; simp [Expr.rightSpine]
  | imp x ho hm hx hw hk hr => subst hk hr ho; simp [Expr.rightSpine]

/-- For products: the right factor begins in the right way. -/
def Front.Good (k : Expr N → Expr N) (r : Expr N) : Prop := ∀ x, k = .imp x → r.impRight x.endsWithNumber

theorem Front.wf {o : Str} {w : List (Token N)} {k : Expr N → Expr N} (h : Front ctx o w k) {r : Expr N} (hr : r.WF ctx)
    (hs : ∀ b ∈ r.leftSpine, ¬ GroupsLeft ctx o b) (hg : Front.Good k r) : (k r).WF ctx := by
  cases h with
  | bin x f hf hx hw hk hr' =>
    subst hk
    exact ⟨⟨f, hf⟩, by simp [primary_rightSpine hx], hs, hw, hr⟩
  | imp x ho hm hx hw hk hr' =>
    subst hk ho
    exact ⟨hm, hx, hg x rfl, hs, hw, hr⟩

/-- One more operand and operator in front of a tree. -/
theorem graft {o : Str} {w : List (Token N)} {k : Expr N → Expr N} (h : Front ctx o w k) : ∀ (r : Expr N), r.WF ctx → Front.Good k r →
    ∃ e : Expr N, e.WF ctx ∧ e.render = w ++ r.render ∧
      ((e = k r ∧ ∀ b ∈ r.leftSpine, ¬ GroupsLeft ctx o b) ∨ (e.rightSpine = r.rightSpine ∧ ∃ b ∈ r.leftSpine, GroupsLeft ctx o b)) := by
  have base : ∀ r : Expr N, r.leftSpine = [] → r.WF ctx → Front.Good k r → ∃ e : Expr N, e.WF ctx ∧ e.render = w ++ r.render ∧
      ((e = k r ∧ ∀ b ∈ r.leftSpine, ¬ GroupsLeft ctx o b) ∨ (e.rightSpine = r.rightSpine ∧ ∃ b ∈ r.leftSpine, GroupsLeft ctx o b)) := by
    intro r hs hr hg
    have hs' : ∀ b ∈ r.leftSpine, ¬ GroupsLeft ctx o b := by simp [hs]
    exact ⟨k r, h.wf hr hs' hg, h.render r, .inl ⟨rfl, hs'⟩⟩
  intro r
  induction r using Expr.rec (motive_2 := fun _ => True) with
  | atom a => exact base _ rfl
  | signed u a => exact base _ rfl
  | prefixed u e _ => exact base _ rfl
  | postfixed p e _ => exact base _ rfl
  | paren g e _ => exact base _ rfl
  | call f g args _ => exact base _ rfl
  | imp l r _ _ => exact base _ rfl
  | one e _ => trivial
  | more e rest _ _ => trivial
  | bin b l r ihl _ =>
    intro hwf hg
    obtain ⟨hb, hl, hr, wl, wr⟩ := hwf
    have hg' : Front.Good k l := fun x hx => hg x hx
    obtain ⟨e, we, re, he⟩ := ihl wl hg'
    rcases he with ⟨rfl, hn⟩ | ⟨hs, hex⟩
    · by_cases hob : GroupsLeft ctx o b
      · refine ⟨.bin b (k l) r, ⟨hb, ?_, hr, we, wr⟩, by simp [Expr.render, re], .inr ⟨rfl, b, by simp [Expr.leftSpine], hob⟩⟩
        intro a ha
        rw [h.rightSpine] at ha
        rcases List.mem_append.1 ha with ha | ha
        · exact hl a ha
        · rw [List.mem_singleton.1 ha]; exact ⟨o, rfl, hob⟩
      · have hs' : ∀ c ∈ (Expr.bin b l r).leftSpine, ¬ GroupsLeft ctx o c := by
          intro c hc
          simp only [Expr.leftSpine, List.mem_append, List.mem_singleton] at hc
          rcases hc with hc | rfl
          · exact hn c hc
          · exact hob
        exact ⟨k (.bin b l r), h.wf ⟨hb, hl, hr, wl, wr⟩ hs' hg, h.render _, .inl ⟨rfl, hs'⟩⟩
    · refine ⟨.bin b e r, ⟨hb, by rw [hs]; exact hl, hr, we, wr⟩, by simp [Expr.render, re], .inr ⟨rfl, ?_⟩⟩
      obtain ⟨c, hc, hgc⟩ := hex
      exact ⟨c, by simp [Expr.leftSpine, hc], hgc⟩

/-! ## First and last tokens -/

theorem Atom.token_word (a : Atom N) : a.token.IsWord := by cases a <;> trivial

theorem word_atom {t : Token N} (h : t.IsWord) : ∃ a : Atom N, t = a.token := by
  cases t with
  | number n => exact ⟨.num n, rfl⟩
  | variable_ s => exact ⟨.var s, rfl⟩
  | constant s => exact ⟨.const s, rfl⟩
  | _ => exact absurd h (by simp [Token.IsWord])

theorem head_append {α : Type} {l m : List α} (h : l ≠ []) : (l ++ m).head? = l.head? := by cases l <;> simp_all

mutual
theorem render_ne : (e : Expr N) → e.render ≠ []
  | .atom _ => by simp [Expr.render]
  | .signed _ _ => by simp [Expr.render]
  | .prefixed _ _ => by simp [Expr.render]
  | .postfixed _ _ => by simp [Expr.render]
  | .paren _ _ => by simp [Expr.render]
  | .call _ _ _ => by simp [Expr.render]
  | .bin _ _ _ => by simp [Expr.render]
  | .imp l _ => by simp [Expr.render, render_ne l]
end

theorem startsWithAtom_head : ∀ (e : Expr N), e.startsWithAtom → ∃ t, e.render.head? = some t ∧ t.IsWord := by
  intro e
  induction e using Expr.rec (motive_2 := fun _ => True) with
  | atom a => intro _; exact ⟨a.token, rfl, a.token_word⟩
  | signed u a => intro h; exact h.elim
  | prefixed u e _ => intro h; exact h.elim
  | postfixed p e ih => intro h; rw [Expr.render, head_append (render_ne e)]; exact ih h
  | paren g e _ => intro h; exact h.elim
  | call f g args _ => intro h; exact h.elim
  | bin o l r ihl _ => intro h; rw [Expr.render, head_append (render_ne l)]; exact ihl h
  | imp l r ihl _ => intro h; rw [Expr.render, head_append (render_ne l)]; exact ihl h
  | one e _ => trivial
  | more e rest _ _ => trivial

theorem impRight_head (P : Prop) : ∀ (e : Expr N) (t : Token N), e.render.head? = some t → (∀ u, t ≠ .unary u) → (P → ∀ n, t ≠ .number n) →
    e.impRight P := by
  intro e
  induction e using Expr.rec (motive_2 := fun _ => True) with
  | atom a =>
    intro t ht hu hn
    cases a with
    | num n => exact fun hp => hn hp n (by simpa [Expr.render, Atom.token] using ht.symm)
    | var s => trivial
    | const s => trivial
  | signed u a => intro t ht hu hn; exact (hu u (by simpa [Expr.render] using ht.symm)).elim
  | prefixed u e _ => intro t ht hu hn; exact (hu u (by simpa [Expr.render] using ht.symm)).elim
  | postfixed p e ih => intro t ht hu hn; rw [Expr.render, head_append (render_ne e)] at ht; exact ih t ht hu hn
  | paren g e _ => intro t ht hu hn; trivial
  | call f g args _ => intro t ht hu hn; trivial
  | bin o l r ihl _ => intro t ht hu hn; rw [Expr.render, head_append (render_ne l)] at ht; exact ihl t ht hu hn
  | imp l r ihl _ => intro t ht hu hn; rw [Expr.render, head_append (render_ne l)] at ht; exact ihl t ht hu hn
  | one e _ => trivial
  | more e rest _ _ => trivial

/-! ## From well placed tokens to a tree -/

/-- Nothing is left, or a bracket is closed, or a comma follows. -/
def AtEnd (ts : List (Token N)) : Prop := ts = [] ∨ (∃ c r, ts = .gclose c :: r) ∨ ∃ r, ts = .comma :: r

/-- The tokens begin with an expression that reaches up to the end of the group. -/
def HasTree (ctx : Ctx N) (s : List (Char × Bool)) (ts : List (Token N)) : Prop :=
  ∃ (e : Expr N) (l : Token N) (rest : List (Token N)), ts = e.render ++ rest ∧ e.WF ctx ∧ WellPlaced ctx s (some l) rest ∧ AtEnd rest

/-- The tokens begin with arguments and a closing bracket. -/
def HasArgs (ctx : Ctx N) (o : Char) (s : List (Char × Bool)) (ts : List (Token N)) : Prop :=
  ∃ (a : Args N) (c : Char) (rest : List (Token N)), ts = a.render ++ .gclose c :: rest ∧ a.WF ctx ∧ Closes o c ∧ WellPlaced ctx s (some (.gclose c)) rest

/-- The last token `l` of the operand `x`. -/
def LastOf (ctx : Ctx N) (x : Expr N) (l : Token N) : Prop :=
  EndsOperand ctx l ∧ ((∃ n, l = .number n) ∨ (∃ c, l = .gclose c) → x.impLeft) ∧ (x.endsWithNumber → ∃ n, l = .number n)

theorem wants_not_ends {p : Token N} (h : WantsOperand ctx (some p)) : ¬ EndsOperand ctx p := by
  intro h'
  cases p with
  | unary u =>
    obtain ⟨f, h1, h2⟩ := h
    obtain ⟨g, h3, h4⟩ := h'
    rw [h1] at h3; cases h3; rw [h2] at h4; cases h4
  | _ => first | exact h | exact h'

theorem begins_not_follows {t : Token N} (h : BeginsOperand ctx t) : ¬ FollowsOperand ctx t := by
  intro h'
  cases t with
  | unary u =>
    obtain ⟨f, h1, h2⟩ := h
    obtain ⟨g, h3, h4⟩ := h'
    rw [h1] at h3; cases h3; rw [h2] at h4; cases h4
  | _ => first | exact h | exact h'

theorem product_left {p t : Token N} (h : Product p t) : (∃ n, p = .number n) ∨ ∃ c, p = .gclose c := by
  cases p with
  | number n => exact .inl ⟨n, rfl⟩
  | gclose c => exact .inr ⟨c, rfl⟩
  | _ => exact absurd h (by simp [Product])

theorem product_begins {p t : Token N} (h : Product p t) : BeginsOperand ctx t := by
  cases p <;> cases t <;> first | exact h.elim | exact h | trivial

theorem product_right {p t : Token N} (h : Product p t) : (∀ u, t ≠ .unary u) ∧ ((∃ n, p = .number n) → ∀ n, t ≠ .number n) := by
  cases p <;> cases t <;> first | exact h.elim | simp

/-- Where an operand has to come, one begins. -/
theorem mayFollow_begins {p : Option (Token N)} {t : Token N} (hp : WantsOperand ctx p) (h : MayFollow ctx p t) : BeginsOperand ctx t := by
  cases h with
  | operand _ _ _ ht => exact ht
  | arguments f g h => exact hp.elim
  | operator p t he _ => exact absurd he (wants_not_ends hp)
  | product p t hm h => exact product_begins h

theorem mayFollow_function {f : Str} {t : Token N} (h : MayFollow ctx (some (.function f)) t) :
    ∃ g : Grouping, t = .gopen g.opn ∧ (g = .parenthesis ∨ ctx.config.customFunctionCall = true) := by
  cases h with
  | operand _ _ hp _ => exact hp.elim
  | arguments _ g h => exact ⟨g, rfl, h⟩
  | operator _ _ he _ => exact he.elim
  | product _ _ hm h => exact (by simpa using product_left h : False).elim

theorem mayFollow_ends {p t : Token N} (hp : EndsOperand ctx p) (h : MayFollow ctx (some p) t) :
    FollowsOperand ctx t ∨ (ctx.config.implicitMul = true ∧ Product p t) := by
  cases h with
  | operand _ _ hw _ => exact absurd hp (wants_not_ends hw)
  | arguments f g h => exact hp.elim
  | operator _ _ _ ht => exact .inl ht
  | product _ _ hm h => exact .inr ⟨hm, h⟩

theorem closes_cls {g : Grouping} {c : Char} (h : Closes g.opn c) : c = g.cls := by
  cases g <;> simp_all [Closes, Grouping.opn, Grouping.cls]

/-- Only the fact that an operand may come matters. -/
theorem wellPlaced_from {s : List (Char × Bool)} {p q : Option (Token N)} {t : Token N} {ts : List (Token N)} (hp : WantsOperand ctx p)
    (hq : ∀ f, q ≠ some (.function f)) (ht : BeginsOperand ctx t) (h : WellPlaced ctx s q (t :: ts)) : WellPlaced ctx s p (t :: ts) := by
  have hp' : p.any Token.isFunction = false := by
    cases p with
    | none => rfl
    | some p => cases p <;> first | rfl | exact hp.elim
  have hq' : q.any Token.isFunction = false := by
    cases q with
    | none => rfl
    | some q => cases q <;> first | rfl | exact (hq _ rfl).elim
  refine ⟨.operand _ _ hp ht, ?_⟩
  have h2 := h.2
  cases t <;> first | exact h2 | (simp only [hp', hq'] at h2 ⊢; exact h2)

/-- The three statements for lists of a given length. -/
structure Trees (ctx : Ctx N) (n : Nat) : Prop where
  tree : ∀ (ts : List (Token N)) (s : List (Char × Bool)) (p : Option (Token N)), ts.length = n → WantsOperand ctx p → WellPlaced ctx s p ts → HasTree ctx s ts
  args : ∀ (ts : List (Token N)) (o : Char) (s : List (Char × Bool)) (p : Option (Token N)), ts.length = n → WantsOperand ctx p →
    WellPlaced ctx ((o, true) :: s) p ts → HasArgs ctx o s ts
  after : ∀ (ts : List (Token N)) (s : List (Char × Bool)) (x : Expr N) (l : Token N), ts.length = n → x.primary → x.WF ctx → LastOf ctx x l →
    WellPlaced ctx s (some l) ts → HasTree ctx s (x.render ++ ts)

theorem trees (ctx : Ctx N) (n : Nat) : Trees ctx n := by
  induction n using Nat.strongRecOn with
  | ind n ih =>
  have tree : ∀ (ts : List (Token N)) (s : List (Char × Bool)) (p : Option (Token N)), ts.length = n → WantsOperand ctx p → WellPlaced ctx s p ts →
      HasTree ctx s ts := by
    intro ts s p hn hp h
    cases ts with
    | nil =>
      obtain ⟨-, t, rfl, ht⟩ := h
      exact absurd ht (wants_not_ends hp)
    | cons t ts =>
      have hb := mayFollow_begins hp h.1
      have hlen : ts.length < n := by simp at hn; omega
      -- an atom
      have word : ∀ a : Atom N, t = a.token → HasTree ctx s (t :: ts) := by
        rintro a rfl
        have hw : WellPlaced ctx s (some a.token) ts := by
          have := h.2
          cases a <;> exact this
        refine (ih _ hlen).after ts s (.atom a) a.token rfl trivial trivial ⟨?_, ?_, ?_⟩ hw
        · cases a <;> trivial
        · rintro (⟨n, hn⟩ | ⟨c, hc⟩)
          · cases a <;> first | trivial | cases hn
          · cases a <;> cases hc
        · intro he
          cases a with
          | num n => exact ⟨n, rfl⟩
          | var s => exact he.elim
          | const s => exact he.elim
      cases t with
      | number m => exact word (.num m) rfl
      | variable_ v => exact word (.var v) rfl
      | constant v => exact word (.const v) rfl
      | binary o => exact hb.elim
      | comma => exact hb.elim
      | gclose c => exact hb.elim
      | argCount k => exact hb.elim
      | unknown v => exact hb.elim
      | unary u =>
        obtain ⟨-, h2⟩ := h
        have h2 : WellPlaced ctx s (some (.unary u)) ts := h2
        cases ts with
        | nil =>
          obtain ⟨-, t, ht, he⟩ := h2
          cases ht
          exact absurd he (wants_not_ends (p := .unary u) hb)
        | cons t' ts' =>
          have hb' := mayFollow_begins (p := some (.unary u)) hb h2.1
          by_cases hword : t'.IsWord
          · obtain ⟨a, rfl⟩ := word_atom hword
            have hw : WellPlaced ctx s (some a.token) ts' := by
              have := h2.2
              cases a <;> exact this
            have hlen' : ts'.length < n := by simp at hlen; omega
            have := (ih _ hlen').after ts' s (.signed u a) a.token rfl trivial hb ⟨?_, ?_, ?_⟩ hw
            · simpa [Expr.render] using this
            · cases a <;> trivial
            · rintro (⟨n, hn⟩ | ⟨c, hc⟩)
              · cases a <;> first | trivial | cases hn
              · cases a <;> cases hc
            · intro he
              cases a with
              | num n => exact ⟨n, rfl⟩
              | var s => exact he.elim
              | const s => exact he.elim
          · obtain ⟨e, l, rest, h3, h4, h5, h6⟩ := (ih _ hlen).tree (t' :: ts') s (some (.unary u)) rfl hb h2
            refine ⟨.prefixed u e, l, rest, by simp [Expr.render, h3], ⟨hb, fun hs => ?_, h4⟩, h5, h6⟩
            obtain ⟨t'', h7, h8⟩ := startsWithAtom_head e hs
            have : (t' :: ts').head? = some t'' := by rw [h3, head_append (render_ne e), h7]
            simp at this
            exact hword (this ▸ h8)
      | gopen o =>
        obtain ⟨g, rfl⟩ := hb
        have h2 : WellPlaced ctx ((g.opn, false) :: s) (some (.gopen g.opn)) ts := by
          have hp' : p.any Token.isFunction = false := by
            cases p with
            | none => rfl
            | some p => cases p <;> first | rfl | exact hp.elim
          have := h.2
          simp only [hp'] at this
          exact this
        obtain ⟨e, l, rest, h3, h4, h5, h6⟩ := (ih _ hlen).tree ts _ (some (.gopen g.opn)) rfl trivial h2
        rcases h6 with rfl | ⟨c, r, rfl⟩ | ⟨r, rfl⟩
        · exact absurd h5.1 (by simp)
        · obtain ⟨-, o', b, s', h7, h8, h9⟩ := h5
          cases h7
          rw [closes_cls h8] at h9 h3
          have hlen' : r.length < n := by rw [h3] at hlen; simp at hlen; omega
          have := (ih _ hlen').after r s (.paren g e) (.gclose g.cls) rfl trivial h4 ⟨trivial, fun _ => trivial, fun h => h.elim⟩ h9
          simpa [Expr.render, h3] using this
        · obtain ⟨-, ⟨o', s', h7⟩, -⟩ := h5
          simp at h7
      | function f =>
        have h2 : WellPlaced ctx s (some (.function f)) ts := h.2
        cases ts with
        | nil =>
          obtain ⟨-, t, ht, he⟩ := h2
          cases ht
          exact he.elim
        | cons t' ts' =>
          obtain ⟨g, rfl, hg⟩ := mayFollow_function h2.1
          have h3 : WellPlaced ctx ((g.opn, true) :: s) (some (.gopen g.opn)) ts' := h2.2
          have hlen' : ts'.length < n := by simp at hlen; omega
          obtain ⟨a, c, rest, h4, h5, h6, h7⟩ := (ih _ hlen').args ts' g.opn s (some (.gopen g.opn)) rfl trivial h3
          rw [closes_cls h6] at h4 h7
          have hlen'' : rest.length < n := by rw [h4] at hlen'; simp at hlen'; omega
          have := (ih _ hlen'').after rest s (.call f g a) (.gclose g.cls) rfl trivial ⟨hg, h5⟩ ⟨trivial, fun _ => trivial, fun h => h.elim⟩ h7
          simpa [Expr.render, h4] using this
  refine ⟨tree, ?_, ?_⟩
  · intro ts o s p hn hp h
    obtain ⟨e, l, rest, h3, h4, h5, h6⟩ := tree ts _ p hn hp h
    rcases h6 with rfl | ⟨c, r, rfl⟩ | ⟨r, rfl⟩
    · exact absurd h5.1 (by simp)
    · obtain ⟨-, o', b, s', h7, h8, h9⟩ := h5
      cases h7
      exact ⟨.one e, c, r, h3, h4, h8, h9⟩
    · obtain ⟨-, -, h7⟩ := h5
      have hlen : r.length < n := by rw [h3] at hn; simp at hn; omega
      obtain ⟨a, c, rest, h8, h9, h10, h11⟩ := (ih _ hlen).args r o s (some .comma) rfl trivial h7
      exact ⟨.more e a, c, rest, by simp [Args.render, h3, h8], ⟨h4, h9⟩, h10, h11⟩
  · intro ts s x l hn hx hw hl h
    cases ts with
    | nil => exact ⟨x, l, [], rfl, hw, h, .inl rfl⟩
    | cons t ts =>
      have hlen : ts.length < n := by simp at hn; omega
      rcases mayFollow_ends hl.1 h.1 with hf | ⟨hm, hpr⟩
      · cases t with
        | comma => exact ⟨x, l, _, rfl, hw, h, .inr (.inr ⟨ts, rfl⟩)⟩
        | gclose c => exact ⟨x, l, _, rfl, hw, h, .inr (.inl ⟨c, ts, rfl⟩)⟩
        | unary u =>
          have := (ih _ hlen).after ts s (.postfixed u x) (.unary u) rfl trivial ⟨hf, hx, hw⟩ ⟨hf, by simp, fun h => h.elim⟩ h.2
          simpa [Expr.render] using this
        | binary o =>
          obtain ⟨f, hf⟩ := hf
          obtain ⟨e, l', rest, h3, h4, h5, h6⟩ := (ih _ hlen).tree ts s (some (.binary o)) rfl trivial h.2
          obtain ⟨e', h7, h8, -⟩ := graft (.bin x f hf hx hw rfl rfl : Front ctx o (x.render ++ [.binary o]) (.bin o x)) e h4 (fun _ h => by cases congrFun h e)
          exact ⟨e', l', rest, by rw [h8, h3]; simp, h7, h5, h6⟩
        | _ => exact hf.elim
      · have hb : BeginsOperand ctx t := product_begins hpr
        have hleft : x.impLeft := hl.2.1 (product_left hpr)
        have hne : ∀ f, some l ≠ some (.function f) := by
          rintro f hf
          cases hf
          exact hl.1
        obtain ⟨e, l', rest, h3, h4, h5, h6⟩ := tree (t :: ts) s none hn trivial (wellPlaced_from trivial hne hb h)
        have hr : e.impRight x.endsWithNumber := by
          refine impRight_head _ e t ?_ (product_right hpr).1 fun hx => (product_right hpr).2 (hl.2.2 hx)
          have : (t :: ts).head? = e.render.head? := by rw [h3, head_append (render_ne e)]
          simpa using this.symm
        obtain ⟨e', h7, h8, -⟩ := graft (.imp x rfl hm hleft hw rfl rfl : Front ctx ['*'] x.render (.imp x)) e h4
          (fun y hy => by cases congrFun hy e; exact hr)
        exact ⟨e', l', rest, by rw [h8, h3]; simp, h7, h5, h6⟩

/-- Well placed tokens are the tokens of a tree. -/
theorem wellPlaced_tree {ts : List (Token N)} (h : WellPlaced ctx [] none ts) : ∃ e : Expr N, e.WF ctx ∧ e.render = ts := by
  obtain ⟨e, l, rest, h1, h2, h3, h4⟩ := (trees ctx _).tree ts [] none rfl trivial h
  rcases h4 with rfl | ⟨c, r, rfl⟩ | ⟨r, rfl⟩
  · exact ⟨e, h2, by simpa using h1.symm⟩
  · obtain ⟨-, o, b, s, h5, -⟩ := h3
    cases h5
  · obtain ⟨-, ⟨o, s, h5⟩, -⟩ := h3
    cases h5

/-! ## From a tree to well placed tokens -/

theorem first_begins : ∀ (e : Expr N), e.WF ctx → ∀ t, e.render.head? = some t → BeginsOperand ctx t := by
  intro e
  induction e using Expr.rec (motive_2 := fun _ => True) with
  | atom a => intro _ t ht; cases ht; cases a <;> trivial
  | signed u a => intro h t ht; cases ht; exact h
  | prefixed u e _ => intro h t ht; cases ht; exact h.1
  | postfixed p e ih => intro h t ht; rw [Expr.render, head_append (render_ne e)] at ht; exact ih h.2.2 t ht
  | paren g e _ => intro h t ht; cases ht; exact ⟨g, rfl⟩
  | call f g args _ => intro h t ht; cases ht; trivial
  | bin o l r ihl _ => intro h t ht; rw [Expr.render, head_append (render_ne l)] at ht; exact ihl h.2.2.2.1 t ht
  | imp l r ihl _ => intro h t ht; rw [Expr.render, head_append (render_ne l)] at ht; exact ihl h.2.2.2.2.1 t ht
  | one e _ => trivial
  | more e rest _ _ => trivial

theorem getLast_append_ne {α : Type} {l m : List α} (h : m ≠ []) : (l ++ m).getLast? = m.getLast? := by
  rw [List.getLast?_append]
  cases hm : m.getLast? with
  | none => exact absurd (List.getLast?_eq_none_iff.1 hm) h
  | some x => rfl

theorem paren_last (g : Grouping) (e : Expr N) : (Expr.paren g e).render.getLast? = some (.gclose g.cls) := by
  rw [Expr.render, ← List.cons_append, List.getLast?_concat]

theorem call_last (f : Str) (g : Grouping) (a : Args N) : (Expr.call f g a).render.getLast? = some (.gclose g.cls) := by
  rw [Expr.render, ← List.cons_append, ← List.cons_append, List.getLast?_concat]

theorem last_ends : ∀ (e : Expr N), e.WF ctx → ∀ t, e.render.getLast? = some t → EndsOperand ctx t := by
  intro e
  induction e using Expr.rec (motive_2 := fun _ => True) with
  | atom a => intro _ t ht; cases ht; cases a <;> trivial
  | signed u a => intro h t ht; cases ht; cases a <;> trivial
  | prefixed u e ih =>
    intro h t ht
    rw [Expr.render, show Token.unary u :: e.render = [Token.unary u] ++ e.render from rfl, getLast_append_ne (render_ne e)] at ht
    exact ih h.2.2 t ht
  | postfixed p e ih => intro h t ht; simp [Expr.render] at ht; subst ht; exact h.1
  | paren g e _ => intro h t ht; rw [paren_last] at ht; cases ht; trivial
  | call f g args _ => intro h t ht; rw [call_last] at ht; cases ht; trivial
  | bin o l r _ ihr =>
    intro h t ht
    rw [Expr.render, show l.render ++ Token.binary o :: r.render = (l.render ++ [Token.binary o]) ++ r.render by simp,
      getLast_append_ne (render_ne r)] at ht
    exact ihr h.2.2.2.2 t ht
  | imp l r _ ihr => intro h t ht; rw [Expr.render, getLast_append_ne (render_ne r)] at ht; exact ihr h.2.2.2.2.2 t ht
  | one e _ => trivial
  | more e rest _ _ => trivial

theorem impLeft_last {x : Expr N} (h : x.impLeft) {t : Token N} (ht : x.render.getLast? = some t) :
    (∃ n, t = .number n ∧ x.endsWithNumber) ∨ ∃ c, t = .gclose c := by
  cases x with
  | atom a =>
    cases a with
    | num n => cases ht; exact .inl ⟨n, rfl, trivial⟩
    | _ => exact h.elim
  | signed u a =>
    cases a with
    | num n => cases ht; exact .inl ⟨n, rfl, trivial⟩
    | _ => exact h.elim
  | paren g e => rw [paren_last] at ht; cases ht; exact .inr ⟨_, rfl⟩
  | call f g a => rw [call_last] at ht; cases ht; exact .inr ⟨_, rfl⟩
  | _ => exact h.elim

theorem impRight_first_token (P : Prop) : ∀ (e : Expr N), e.impRight P → ∀ t, e.render.head? = some t → (∀ u, t ≠ .unary u) ∧ (P → ∀ n, t ≠ .number n) := by
  intro e
  induction e using Expr.rec (motive_2 := fun _ => True) with
  | atom a =>
    intro h t ht
    cases ht
    cases a with
    | num n => exact ⟨by simp [Atom.token], fun hp => absurd hp h⟩
    | var s => exact ⟨by simp [Atom.token], by simp [Atom.token]⟩
    | const s => exact ⟨by simp [Atom.token], by simp [Atom.token]⟩
  | signed u a => intro h; exact h.elim
  | prefixed u e _ => intro h; exact h.elim
  | postfixed p e ih => intro h t ht; rw [Expr.render, head_append (render_ne e)] at ht; exact ih h t ht
  | paren g e _ => intro h t ht; cases ht; simp
  | call f g args _ => intro h t ht; cases ht; simp
  | bin o l r ihl _ => intro h t ht; rw [Expr.render, head_append (render_ne l)] at ht; exact ihl h t ht
  | imp l r ihl _ => intro h t ht; rw [Expr.render, head_append (render_ne l)] at ht; exact ihl h t ht
  | one e _ => trivial
  | more e rest _ _ => trivial

theorem imp_product {l r : Expr N} (h : (Expr.imp l r).WF ctx) {p t : Token N} (hp : l.render.getLast? = some p) (ht : r.render.head? = some t) :
    Product p t := by
  obtain ⟨-, h1, h2, -, -, h5⟩ := h
  have hb := first_begins r h5 t ht
  obtain ⟨hu, hn⟩ := impRight_first_token _ r h2 t ht
  rcases impLeft_last h1 hp with ⟨n, rfl, he⟩ | ⟨c, rfl⟩
  · cases t with
    | number m => exact absurd rfl (hn he m)
    | unary u => exact absurd rfl (hu u)
    | _ => first | exact hb | trivial
  · cases t with
    | unary u => exact absurd rfl (hu u)
    | _ => first | exact hb | trivial

theorem head_some (e : Expr N) : ∃ t, e.render.head? = some t := by
  cases h : e.render with
  | nil => exact absurd h (render_ne e)
  | cons t ts => exact ⟨t, rfl⟩

theorem grouping_closes (g : Grouping) : Closes g.opn g.cls := by cases g <;> simp [Closes, Grouping.opn, Grouping.cls]

theorem tree_wellPlaced : ∀ (e : Expr N), e.WF ctx → ∀ (s : List (Char × Bool)) (p : Option (Token N)) (rest : List (Token N)),
    (∀ t, e.render.head? = some t → MayFollow ctx p t) → (∀ f, p ≠ some (.function f)) →
    (∀ l, e.render.getLast? = some l → WellPlaced ctx s (some l) rest) → WellPlaced ctx s p (e.render ++ rest) := by
  intro e
  induction e using Expr.rec (motive_2 := fun a => a.WF ctx → ∀ (s : List (Char × Bool)) (o c : Char) (p : Option (Token N)) (rest : List (Token N)),
      WantsOperand ctx p → Closes o c → WellPlaced ctx s (some (.gclose c)) rest → WellPlaced ctx ((o, true) :: s) p (a.render ++ .gclose c :: rest)) with
  | atom a =>
    intro h s p rest hp hf hr
    have h1 := hp _ rfl
    have h2 := hr _ rfl
    cases a <;> exact ⟨h1, h2⟩
  | signed u a =>
    intro h s p rest hp hf hr
    have h1 := hp _ rfl
    have h2 := hr _ rfl
    have h3 : MayFollow ctx (some (.unary u)) a.token := .operand _ _ h (by cases a <;> trivial)
    refine ⟨h1, ?_⟩
    cases a <;> exact ⟨h3, h2⟩
  | prefixed u e ih =>
    intro h s p rest hp hf hr
    refine ⟨hp _ rfl, ih h.2.2 s (some (.unary u)) rest (fun t ht => .operand _ _ h.1 (first_begins e h.2.2 t ht)) (by simp) fun l hl => hr l ?_⟩
    rw [Expr.render, show Token.unary u :: e.render = [Token.unary u] ++ e.render from rfl, getLast_append_ne (render_ne e)]
    exact hl
  | postfixed q e ih =>
    intro h s p rest hp hf hr
    have := ih h.2.2 s p (.unary q :: rest) (fun t ht => hp t (by rw [Expr.render, head_append (render_ne e)]; exact ht)) hf fun l hl =>
      ⟨.operator _ _ (last_ends e h.2.2 l hl) h.1, hr _ (by simp [Expr.render])⟩
    simpa [Expr.render] using this
  | paren g e ih =>
    intro h s p rest hp hf hr
    have := ih h ((g.opn, p.any Token.isFunction) :: s) (some (.gopen g.opn)) (.gclose g.cls :: rest)
      (fun t ht => .operand _ _ trivial (first_begins e h t ht)) (by simp) fun l hl =>
      ⟨.operator _ _ (last_ends e h l hl) trivial, _, _, _, rfl, grouping_closes g, hr _ (paren_last g e)⟩
    have h2 : WellPlaced ctx s p (.gopen g.opn :: (e.render ++ .gclose g.cls :: rest)) := ⟨hp _ rfl, this⟩
    simpa [Expr.render] using h2
  | call f g args ih =>
    intro h s p rest hp hf hr
    have := ih h.2 s g.opn g.cls (some (.gopen g.opn)) rest trivial (grouping_closes g) (hr _ (call_last f g args))
    have h2 : WellPlaced ctx s p (.function f :: .gopen g.opn :: (args.render ++ .gclose g.cls :: rest)) := ⟨hp _ rfl, .arguments f g h.1, this⟩
    simpa [Expr.render] using h2
  | bin o l r ihl ihr =>
    intro h s p rest hp hf hr
    obtain ⟨hb, -, -, wl, wr⟩ := h
    have h2 : WellPlaced ctx s (some (.binary o)) (r.render ++ rest) :=
      ihr wr s (some (.binary o)) rest (fun t ht => .operand _ _ trivial (first_begins r wr t ht)) (by simp) fun t ht => hr t (by
        rw [Expr.render, show l.render ++ Token.binary o :: r.render = (l.render ++ [Token.binary o]) ++ r.render by simp,
          getLast_append_ne (render_ne r)]
        exact ht)
    have := ihl wl s p (.binary o :: (r.render ++ rest)) (fun t ht => hp t (by rw [Expr.render, head_append (render_ne l)]; exact ht)) hf
      fun t ht => ⟨.operator _ _ (last_ends l wl t ht) hb, h2⟩
    simpa [Expr.render] using this
  | imp l r ihl ihr =>
    intro h s p rest hp hf hr
    have h' := h
    obtain ⟨hm, -, -, -, wl, wr⟩ := h
    have := ihl wl s p (r.render ++ rest) (fun t ht => hp t (by rw [Expr.render, head_append (render_ne l)]; exact ht)) hf fun t ht =>
      ihr wr s (some t) rest (fun t' ht' => .product _ _ hm (imp_product h' ht ht')) (by
        rintro f hf
        cases hf
        exact last_ends l wl _ ht) fun t' ht' => hr t' (by rw [Expr.render, getLast_append_ne (render_ne r)]; exact ht')
    simpa [Expr.render] using this
  | one e ih =>
    rename_i h s o c p rest hp hc hr
    refine ih h ((o, true) :: s) p (.gclose c :: rest) (fun t ht => .operand _ _ hp (first_begins e h t ht)) ?_ fun l hl =>
      ⟨.operator _ _ (last_ends e h l hl) trivial, _, _, _, rfl, hc, hr⟩
    rintro f rfl
    exact hp
  | more e args ih iha =>
    rename_i h s o c p rest hp hc hr
    have h2 := iha h.2 s o c (some .comma) rest trivial hc hr
    have := ih h.1 ((o, true) :: s) p (.comma :: (args.render ++ .gclose c :: rest)) (fun t ht => .operand _ _ hp (first_begins e h.1 t ht)) (by
        rintro f rfl
        exact hp) fun l hl => ⟨.operator _ _ (last_ends e h.1 l hl) trivial, ⟨o, s, rfl⟩, h2⟩
    simpa [Args.render] using this

theorem wellPlaced_render {e : Expr N} (h : e.WF ctx) : WellPlaced ctx [] none e.render := by
  have := tree_wellPlaced e h [] none [] (fun t ht => .operand _ _ trivial (first_begins e h t ht)) (by simp)
    fun l hl => ⟨rfl, l, rfl, last_ends e h l hl⟩
  simpa using this

end Prexel
