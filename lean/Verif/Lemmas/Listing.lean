import Verif.Spec.Apps
import Verif.Lemmas.Builtin
import Verif.Lemmas.Tokenizer
/-!
# Lemmas about listings
-/

namespace Prexel
variable {N V : Type}

/-! ## The keys of a context -/

theorem keys_insert {same : Str → Str → Bool} (m : Map V) (k : Str) (v : V) :
    ∀ x ∈ Map.keys (Map.insert same m k v), x ∈ Map.keys m ∨ x = k := by
  intro x hx
  unfold Map.insert at hx
  split at hx
  · simp only [Map.keys, List.map_map, List.mem_map] at hx ⊢
    obtain ⟨e, he, rfl⟩ := hx
    refine .inl ⟨e, he, ?_⟩
    simp only [Function.comp]
    split <;> rfl
  · simpa [Map.keys] using hx

theorem keys_insertAliases {same : Str → Str → Bool} (v : V) (as : List Str) (m : Map V) :
    ∀ x ∈ Map.keys (insertAliases same v as m).2, x ∈ Map.keys m ∨ x ∈ as := by
  induction as generalizing m with
  | nil => intro x hx; exact .inl hx
  | cons a as ih =>
    intro x hx
    unfold insertAliases at hx
    split at hx
    · exact .inl hx
    · rcases ih _ x hx with h | h
      · rcases keys_insert m a v x h with h | rfl
        · exact .inl h
        · exact .inr (by simp)
      · exact .inr (by simp [h])

theorem keys_addAs {same : Str → Str → Bool} (debug : Bool) (m : Map V) (f : Named V) (name : Str) :
    ∀ x ∈ Map.keys (addAs same debug m f name).2, x ∈ Map.keys m ∨ x ∈ name :: f.aliases := by
  intro x hx
  unfold addAs at hx
  cases hd : debugCheck debug name with
  | err k => rw [hd] at hx; exact .inl hx
  | panic => rw [hd] at hx; exact .inl hx
  | ok u =>
    simp only [hd] at hx
    split at hx
    · exact .inl hx
    · have := keys_insertAliases (same := same) f.fn f.aliases m
      cases hr : insertAliases same f.fn f.aliases m with
      | mk r m' =>
        rw [hr] at hx this
        cases r with
        | ok u =>
          rcases keys_insert m' name f.fn x hx with h | rfl
          · exact (this x h).imp_right fun h => by simp [h]
          · exact .inr (by simp)
        | err k => exact (this x hx).imp_right fun h => by simp [h]
        | panic => exact (this x hx).imp_right fun h => by simp [h]

theorem values_insert {same : Str → Str → Bool} (hs : Equiv same) {m : Map V} (h : ∀ e ∈ m, Map.get same m e.1 = some e.2) (k : Str) (v : V) :
    ∀ e ∈ Map.insert same m k v, Map.get same (Map.insert same m k v) e.1 = some e.2 := by
  intro e he
  rw [Map.get_insert hs]
  unfold Map.insert at he
  split at he
  · obtain ⟨a, ha, rfl⟩ := List.mem_map.mp he
    by_cases hak : same a.1 k = true
    · simp [hak, hs.symm _ _ hak]
    · have hka : same k a.1 = false := by
        cases hka : same k a.1 with
        | false => rfl
        | true => exact absurd (hs.symm _ _ hka) hak
      simp [hak, hka, h a ha]
  · rename_i hc
    rcases List.mem_append.mp he with he | he
    rotate_left
    · obtain rfl := List.mem_singleton.mp he
      simp [hs.refl]
    · have hka : same k e.1 = false := by
        cases hka : same k e.1 with
        | false => rfl
        | true =>
          exfalso
          apply hc
          simp only [Map.containsKey, Map.get, Option.isSome_map, List.find?_isSome]
          exact ⟨e, he, hs.symm _ _ hka⟩
      simp [hka, h e he]

/-- The keys of the four maps are the names of the tables. -/
structure KeysIn (K : Keys) (c : Context N) (cs : List (Str × N)) (bs : List (Named (BinFn N))) (us : List (Named (UnFn N))) (fs : List (Named (Fn N))) :
    Prop where
  values : ∀ e ∈ c.constants, Map.get K.same c.constants e.1 = some e.2
  constants : ∀ x ∈ Map.keys c.constants, x ∈ cs.map (·.1)
  binary : ∀ x ∈ Map.keys c.binary, x ∈ bs.flatMap Named.names
  unary : ∀ x ∈ Map.keys c.unary, x ∈ us.flatMap Named.names
  functions : ∀ x ∈ Map.keys c.functions, x ∈ fs.flatMap Named.names

/-- An operation of a constructor with these tables. -/
def BuildOp (cs : List (Str × N)) (bs : List (Named (BinFn N))) (us : List (Named (UnFn N))) (fs : List (Named (Fn N))) (o : Op N) : Prop :=
  (∃ e ∈ cs, o = .addConstant e.1 e.2) ∨ (∃ f ∈ bs, o = .addBinaryFunction f) ∨ (∃ f ∈ us, o = .addUnaryFunction f) ∨
    ∃ f ∈ fs, o = .addFunction f

theorem runUnwrap_keys {K : Keys} {debug : Bool} {cs : List (Str × N)} {bs : List (Named (BinFn N))} {us : List (Named (UnFn N))}
    {fs : List (Named (Fn N))} {os : List (Op N)} (ho : ∀ o ∈ os, BuildOp cs bs us fs o) {c c' : Context N} (hk : KeysIn K c cs bs us fs)
    (hr : c.runUnwrap K debug os = .ok c') : KeysIn K c' cs bs us fs := by
  induction os generalizing c with
  | nil => cases hr; exact hk
  | cons o os ih =>
    unfold Context.runUnwrap at hr
    cases hrun : c.run K debug o with
    | mk r c1 =>
      rw [hrun] at hr
      cases r with
      | err k => cases hr
      | panic => cases hr
      | ok u =>
        refine ih (fun o h => ho o (by simp [h])) ?_ hr
        have hc1 : c1 = (c.run K debug o).2 := by rw [hrun]
        rcases ho o (by simp) with ⟨e, he, rfl⟩ | ⟨f, hf, rfl⟩ | ⟨f, hf, rfl⟩ | ⟨f, hf, rfl⟩
        · simp only [Context.run] at hc1
          split at hc1 <;> try (subst hc1; exact hk)
          split at hc1 <;> subst hc1
          · exact hk
          · refine ⟨values_insert K.equiv hk.values _ _, fun x hx => ?_, hk.binary, hk.unary, hk.functions⟩
            rcases keys_insert _ _ _ x hx with h | rfl
            · exact hk.constants x h
            · exact List.mem_map.mpr ⟨e, he, rfl⟩
        · subst hc1
          refine ⟨hk.values, hk.constants, fun x hx => ?_, hk.unary, hk.functions⟩
          rcases keys_addAs _ _ _ _ x hx with h | h
          · exact hk.binary x h
          · exact List.mem_flatMap.mpr ⟨f, hf, h⟩
        · subst hc1
          refine ⟨hk.values, hk.constants, hk.binary, fun x hx => ?_, hk.functions⟩
          rcases keys_addAs _ _ _ _ x hx with h | h
          · exact hk.unary x h
          · exact List.mem_flatMap.mpr ⟨f, hf, h⟩
        · subst hc1
          refine ⟨hk.values, hk.constants, hk.binary, hk.unary, fun x hx => ?_⟩
          rcases keys_addAs _ _ _ _ x hx with h | h
          · exact hk.functions x h
          · exact List.mem_flatMap.mpr ⟨f, hf, h⟩

theorem build_keys {K : Keys} {debug : Bool} {config : Config} {cs : List (Str × N)} {bs : List (Named (BinFn N))}
    {us : List (Named (UnFn N))} {fs : List (Named (Fn N))} {c : Context N}
    (hr : (Context.withConfig config).runUnwrap K debug (buildOps cs bs us fs) = .ok c) : KeysIn K c cs bs us fs := by
  refine runUnwrap_keys ?_ ⟨?_, ?_, ?_, ?_, ?_⟩ hr
  · intro o ho
    simp only [buildOps, List.mem_append, List.mem_map] at ho
    rcases ho with ⟨e, he, rfl⟩ | ⟨f, hf, rfl⟩ | ⟨f, hf, rfl⟩ | ⟨f, hf, rfl⟩
    · exact .inl ⟨e, he, rfl⟩
    · exact .inr (.inl ⟨f, hf, rfl⟩)
    · exact .inr (.inr (.inl ⟨f, hf, rfl⟩))
    · exact .inr (.inr (.inr ⟨f, hf, rfl⟩))
  all_goals intro x hx; simp [Context.withConfig, Map.keys] at hx

/-! ## Keys and look-ups -/

theorem get_of_key {same : Str → Str → Bool} (h : Equiv same) {m : Map V} {k : Str} (hk : k ∈ Map.keys m) : ∃ v, Map.get same m k = some v := by
  simp only [Map.keys, List.mem_map] at hk
  obtain ⟨e, he, rfl⟩ := hk
  have : (m.find? fun a => same a.1 e.1).isSome = true := List.find?_isSome.mpr ⟨e, he, h.1 _⟩
  obtain ⟨a, ha⟩ := Option.isSome_iff_exists.mp this
  exact ⟨a.2, by simp [Map.get, ha]⟩

theorem key_of_get {same : Str → Str → Bool} {m : Map V} {k : Str} {v : V} (h : Map.get same m k = some v) :
    ∃ e ∈ m, e.2 = v ∧ same e.1 k = true := by
  unfold Map.get at h
  cases hf : m.find? (fun e => same e.1 k) with
  | none => simp [hf] at h
  | some e =>
    simp [hf] at h
    exact ⟨e, List.mem_of_find?_eq_some hf, h, by have := List.find?_some hf; simpa using this⟩

theorem Pairwise2.right_mem {α β : Type} {R : α → β → Prop} {xs : List α} {ys : List β} (h : Pairwise2 R xs ys) {y : β} (hy : y ∈ ys) :
    ∃ x, R x y := by
  induction h with
  | nil => cases hy
  | cons hr _ ih =>
    rcases List.mem_cons.mp hy with rfl | hy
    · exact ⟨_, hr⟩
    · exact ih hy

theorem tokenize_standsFor {read : Str → Option N} {rules : List Rule} (hg : AllGood rules) (hs : SkipsWs rules) {v : Ctx N} {s : Str}
    {ts : List (Token N)} (h : tokenize read (split rules) v s = .ok ts) {t : Token N} (ht : t ∈ ts) : ∃ w, StandsFor read v w t := by
  unfold tokenize at h
  split at h
  · cases h
  · have := tokenizeLoop_standsFor (fun hm => by
      have := (split_no_ws hg hs s _ hm).2 ' ' (by simp)
      exact absurd this (by decide)) h
    exact this.right_mem ht

theorem evalTokens_number (v : Ctx N) (x : N) : evalTokens v [.number x] = .ok x := by
  cases h : v.config.implicitMul <;>
  simp [evalTokens, infixToRpn, syLoop, syStep, dispatch, pushNumber, implicitMulBlock, implicitMulHere, SY.init, flush, rpnLoop, rpnStep, rpnResult, h]

theorem evalTokens_constant (v : Ctx N) (n : Str) (x : N) (hx : v.getConstant n = some x) : evalTokens v [.constant n] = .ok x := by
  cases h : v.config.implicitMul <;>
  simp [evalTokens, infixToRpn, syLoop, syStep, dispatch, pushNumber, implicitMulBlock, implicitMulHere, SY.init, flush, rpnLoop, rpnStep, rpnResult, Res.ofOption, h, hx]

/-- The names can be written as text. -/
def TextsOK (rules : List Rule) (nc nb nu nf : List Str) : Prop :=
  (∀ n ∈ nf, split rules n = [n] ∧ n.all isWhitespace = false ∧ ∀ m ∈ nc, hashInput m ≠ hashInput n) ∧
  (∀ n ∈ nb, split rules (str "0 " ++ (n ++ str " 0")) = [['0'], n, ['0']] ∧ n ≠ ['i'] ∧ ∀ m ∈ nc ++ nf, hashInput m ≠ hashInput n) ∧
  (∀ n ∈ nu, split rules (n ++ str " 0") = [n, ['0']] ∧ split rules (str "0 " ++ n) = [['0'], n] ∧ n.all isWhitespace = false ∧ n ≠ ['i'] ∧
    ∀ m ∈ nc ++ nf, hashInput m ≠ hashInput n) ∧
  (∀ n ∈ nc, split rules n = [n] ∧ n.all isWhitespace = false)

instance (rules : List Rule) (nc nb nu nf : List Str) : Decidable (TextsOK rules nc nb nu nf) := by unfold TextsOK; infer_instance

theorem lookup_not {fs : List (Named V)} {k : Str} (h : ∀ m ∈ fs.flatMap Named.names, hashInput m ≠ hashInput k) : lookup hashSame fs k = none := by
  cases hl : lookup hashSame fs k with
  | none => rfl
  | some v =>
    obtain ⟨n, hn, hnk⟩ := (lookup_isSome fs k).mp (by rw [hl]; rfl)
    simp only [hashSame, beq_iff_eq] at hnk
    exact absurd hnk (h n hn)

theorem lookupConstant_not {cs : List (Str × N)} {k : Str} (h : ∀ m ∈ cs.map (·.1), hashInput m ≠ hashInput k) :
    lookupConstant hashSame cs k = none := by
  cases hl : lookupConstant hashSame cs k with
  | none => rfl
  | some v =>
    obtain ⟨e, he, -, hk⟩ := lookupConstant_some hl
    simp only [hashSame, beq_iff_eq] at hk
    exact absurd hk (h e.1 (List.mem_map.mpr ⟨e, he, rfl⟩))

section
variable {K : Keys} {config config' : Config} {cs : List (Str × N)} {bs : List (Named (BinFn N))} {us : List (Named (UnFn N))}
  {fs : List (Named (Fn N))} {c c' : Context N} {rules : List Rule} {read : Str → Option N} {shown : N → Str}

theorem caseVariant_key {m : Map V} {l : List Str} (hgood : GoodNames l) (hm : ∀ x ∈ Map.keys m, x ∈ l) {w : Str} (h : Map.get K.same m w ≠ none) :
    ∃ e ∈ m, CaseVariant e.1 w := by
  cases hg : Map.get K.same m w with
  | none => exact absurd hg h
  | some v =>
    obtain ⟨e, he, -, hk⟩ := key_of_get hg
    have := hgood.1 e.1 (hm e.1 (List.mem_map.mpr ⟨e, he, rfl⟩))
    exact ⟨e, he, (K.same_plain this.2).mp hk⟩

theorem faithful (hg : AllGood rules) (hs : SkipsWs rules) (hT : Tables cs bs us fs) (hk : KeysIn K c cs bs us fs)
    (hv : c.view K = tablesCtx config cs bs us fs) (hv' : c'.view K = tablesCtx config' cs bs us fs)
    (ht : TextsOK rules (cs.map (·.1)) (bs.flatMap Named.names) (us.flatMap Named.names) (fs.flatMap Named.names))
    (hp : ∀ u ∈ us, u.fn.notation_ = .post → ∀ m ∈ u.names, ∀ n ∈ bs.flatMap Named.names, hashInput m ≠ hashInput n)
    (hr : (c.listing shown).Readable read shown) : Faithful (c.listing shown) read rules shown (c'.view K) := by
  obtain ⟨h0, hrf, hro, hrc⟩ := hr
  obtain ⟨z, hz⟩ := Option.isSome_iff_exists.mp h0
  obtain ⟨htf, htb, htu, htc⟩ := ht
  have hgf : (c'.view K).getFunction = (c.view K).getFunction := by rw [hv, hv']; rfl
  have hgu : (c'.view K).getUnary = (c.view K).getUnary := by rw [hv, hv']; rfl
  have hgb : (c'.view K).getBinary = (c.view K).getBinary := by rw [hv, hv']; rfl
  have hgc : (c'.view K).getConstant = (c.view K).getConstant := by rw [hv, hv']; rfl
  have hpost : ∀ n ∈ Map.keys c.binary, ∀ op, (c'.view K).getUnary n = some op → op.notation_ ≠ .post := by
    intro n hn op hop hpo
    rw [hv'] at hop
    obtain ⟨u, hu, rfl, m, hm, hmn⟩ := lookup_some hop
    exact hp u hu hpo m hm n (hk.binary n hn) (by simpa [hashSame] using hmn)
  have h00 : (str "0 ").all isWhitespace = false := by decide
  have hgv : ∀ x, (c'.view K).getVariable x = none := by intro x; rw [hv']; rfl
  refine ⟨?_, ?_, ?_, ?_, ?_, ?_⟩
  · intro n hn
    obtain ⟨h1, h2, h3⟩ := htf n (hk.functions n hn)
    obtain ⟨f, hf⟩ := get_of_key K.equiv hn
    have hc0 : (c'.view K).getConstant n = none := by rw [hv']; exact lookupConstant_not h3
    have hf0 : (c'.view K).getFunction n = some f := by rw [hgf]; exact hf
    simp [tokenize, h1, h2, tokenizeLoop, hrf n hn, Ctx.isVariable, Ctx.isConstant, Ctx.isFunction, hgv, hc0, hf0]
  · intro n hn
    refine ⟨z, hz, ?_⟩
    have hread := hro n hn
    simp only [Context.listing, List.mem_append] at hn
    rcases hn with hn | hn
    · left
      obtain ⟨h1, h2, h3⟩ := htb n (hk.binary n hn)
      obtain ⟨f, hf⟩ := get_of_key K.equiv hn
      have hc0 : (c'.view K).getConstant n = none := by
        rw [hv']; exact lookupConstant_not fun m hm => h3 m (List.mem_append_left _ hm)
      have hf0 : (c'.view K).getFunction n = none := by
        rw [hv']; exact lookup_not fun m hm => h3 m (List.mem_append_right _ hm)
      have hb0 : (c'.view K).getBinary n = some f := by rw [hgb]; exact hf
      have hw : (str "0 " ++ (n ++ str " 0")).all isWhitespace = false := by rw [List.all_append, h00]; rfl
      have hu0 : isUnaryOp read (c'.view K) (some ['0']) n (some n) = .ok false := by
        unfold isUnaryOp
        cases hu : (c'.view K).getUnary n with
        | none => rfl
        | some op =>
          simp only
          cases hop : op.notation_ with
          | pre => simp [hz, singleChar, Config.isGroupClose]
          | post => exact absurd hop (hpost n hn op hu)
      simp [tokenize, h1, hw, tokenizeLoop, hz, hread, h2, Ctx.isVariable, Ctx.isConstant, Ctx.isFunction, Ctx.isBinary, hgv, hc0, hf0, hb0,
        operatorToken, hu0]
    · right
      obtain ⟨h1, h1', hw, h2, h3⟩ := htu n (hk.unary n hn)
      obtain ⟨f, hf⟩ := get_of_key K.equiv hn
      have hc0 : (c'.view K).getConstant n = none := by
        rw [hv']; exact lookupConstant_not fun m hm => h3 m (List.mem_append_left _ hm)
      have hf0 : (c'.view K).getFunction n = none := by
        rw [hv']; exact lookup_not fun m hm => h3 m (List.mem_append_right _ hm)
      have hu0 : (c'.view K).getUnary n = some f := by rw [hgu]; exact hf
      cases hop : f.notation_ with
      | pre =>
        left
        have hw' : (n ++ str " 0").all isWhitespace = false := by rw [List.all_append, hw]; rfl
        simp [tokenize, h1, hw', tokenizeLoop, hz, hread, Ctx.isVariable, Ctx.isConstant, Ctx.isFunction, Ctx.isUnary, hgv, hc0, hf0, hu0,
          operatorToken, isUnaryOp, hop]
      | post =>
        right
        have hw' : (str "0 " ++ n).all isWhitespace = false := by rw [List.all_append, h00]; rfl
        simp [tokenize, h1', hw', tokenizeLoop, hz, hread, h2, Ctx.isVariable, Ctx.isConstant, Ctx.isFunction, Ctx.isUnary, hgv, hc0, hf0, hu0,
          operatorToken, isUnaryOp, hop]
  · intro e he
    simp only [Context.listing, List.mem_map] at he
    obtain ⟨a, ha, rfl⟩ := he
    obtain ⟨h1, h2⟩ := htc a.1 (hk.constants a.1 (List.mem_map.mpr ⟨a, ha, rfl⟩))
    have hc0 : (c'.view K).getConstant a.1 = some a.2 := by rw [hgc]; exact hk.values a ha
    cases hra : read a.1 with
    | some x =>
      refine ⟨x, ?_, hrc _ (List.mem_map.mpr ⟨a, ha, rfl⟩) x hra⟩
      simp [eval, tokenize, h1, h2, tokenizeLoop, hra, evalTokens_number]
    | none =>
      refine ⟨a.2, ?_, rfl⟩
      simp [eval, tokenize, h1, h2, tokenizeLoop, hra, Ctx.isVariable, Ctx.isConstant, hgv, hc0, evalTokens_constant _ _ _ hc0]
  · intro s ts w h1 h2
    obtain ⟨w', hw, -, -, -, hne⟩ := tokenize_standsFor hg hs h1 h2
    subst hw
    rw [hgf] at hne
    obtain ⟨e, he, hcv⟩ := caseVariant_key hT.functions hk.functions hne
    exact ⟨e.1, List.mem_map.mpr ⟨e, he, rfl⟩, hcv⟩
  · intro s ts w h1 h2
    have key : (c.view K).getBinary w ≠ none ∨ (c.view K).getUnary w ≠ none := by
      rcases h2 with h2 | h2
      · obtain ⟨w', hw, -, hne⟩ := tokenize_standsFor hg hs h1 h2
        subst hw; rw [hgb, hgu] at hne; exact hne
      · obtain ⟨w', hw, -, hne⟩ := tokenize_standsFor hg hs h1 h2
        subst hw; rw [hgu] at hne; exact .inr hne
    rcases key with hne | hne
    · obtain ⟨e, he, hcv⟩ := caseVariant_key hT.binary hk.binary hne
      exact ⟨e.1, List.mem_append_left _ (List.mem_map.mpr ⟨e, he, rfl⟩), hcv⟩
    · obtain ⟨e, he, hcv⟩ := caseVariant_key hT.unary hk.unary hne
      exact ⟨e.1, List.mem_append_right _ (List.mem_map.mpr ⟨e, he, rfl⟩), hcv⟩
  · intro s ts w h1 h2
    obtain ⟨w', hw, -, -, hne⟩ := tokenize_standsFor hg hs h1 h2
    subst hw
    rw [hgc] at hne
    obtain ⟨e, he, hcv⟩ := caseVariant_key hT.constants hk.constants hne
    exact ⟨(e.1, shown e.2), List.mem_map.mpr ⟨e, he, rfl⟩, hcv⟩

end

end Prexel
