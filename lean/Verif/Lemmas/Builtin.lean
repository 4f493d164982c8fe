import Verif.Lemmas.Context
import Verif.Spec.History
import Verif.Model.Binary
/-!
# Lemmas about the built-in contexts
-/

set_option linter.unusedVariables false
set_option linter.unusedSimpArgs false

namespace Prexel
variable {N F V : Type}

/-- The names of a function: its name and its aliases. -/
def Named.names (f : Named V) : List Str := f.name :: f.aliases

/-- What a table of functions binds a name to. -/
def lookup (same : Str → Str → Bool) (fs : List (Named V)) (k : Str) : Option V :=
  (fs.find? fun f => f.names.any (same · k)).map (·.fn)

variable {same : Str → Str → Bool}

theorem fresh_congr {m m' : Map V} {l : List Str} (h : Fresh same m l) (hg : ∀ b ∈ l, Map.get same m' b = Map.get same m b) :
    Fresh same m' l := by
  induction l with
  | nil => trivial
  | cons a l ih =>
    exact ⟨(hg a (by simp)).trans h.1, h.2.1, ih h.2.2 fun b hb => hg b (by simp [hb])⟩

theorem fresh_append {m : Map V} {l l' : List Str} :
    Fresh same m (l ++ l') ↔ Fresh same m l ∧ Fresh same m l' ∧ ∀ a ∈ l, ∀ b ∈ l', same a b = false := by
  induction l with
  | nil => simp [Fresh]
  | cons a l ih =>
    simp only [List.cons_append, Fresh, ih, List.mem_append, List.mem_cons]
    constructor
    · rintro ⟨h1, h2, h3, h4, h5⟩
      refine ⟨⟨h1, fun b hb => h2 b (.inl hb), h3⟩, h4, ?_⟩
      rintro x (rfl | hx) b hb
      · exact h2 b (.inr hb)
      · exact h5 x hx b hb
    · rintro ⟨⟨h1, h2, h3⟩, h4, h5⟩
      exact ⟨h1, fun b hb => hb.elim (h2 b) (h5 a (.inl rfl) b), h3, h4, fun x hx b hb => h5 x (.inr hx) b hb⟩

/-- Registering a list of functions one after the other. -/
def addAll (same : Str → Str → Bool) (debug : Bool) : Map V → List (Named V) → Res (Map V)
  | m, [] => .ok m
  | m, f :: fs => match addAs same debug m f f.name with
    | (.ok (), m') => addAll same debug m' fs
    | _ => .panic

theorem addAs_fresh (hs : Equiv same) (debug : Bool) (m : Map V) (f : Named V) (hv : checkTokenName f.name = .ok ())
    (hf : Fresh same m f.names) : (addAs same debug m f f.name).1 = .ok () := by
  have hd : debugCheck debug f.name = .ok () := by cases debug <;> simp [debugCheck, hv]
  have hn : Map.containsKey same m f.name = false := by simp [Map.containsKey, hf.1]
  have ha : (insertAliases same f.fn f.aliases m).1 = .ok () := by
    clear hv hd hn
    have hf' := hf.2.2
    clear hf
    generalize f.aliases = as at hf' ⊢
    induction as generalizing m with
    | nil => rfl
    | cons a as ih =>
      unfold insertAliases
      have : Map.containsKey same m a = false := by simp [Map.containsKey, hf'.1]
      rw [this]
      refine ih _ (fresh_congr hf'.2.2 ?_)
      intro b hb
      rw [Map.get_insert hs, hf'.2.1 b hb]
      simp
  unfold addAs
  rw [hd]
  simp only [hn, Bool.false_eq_true, if_false]
  cases hi : insertAliases same f.fn f.aliases m with
  | mk r m' => rw [hi] at ha; simp only at ha; subst ha; rfl

theorem addAll_ok (hs : Equiv same) (debug : Bool) (fs : List (Named V)) (m : Map V) (hv : ∀ f ∈ fs, checkTokenName f.name = .ok ())
    (hf : Fresh same m (fs.flatMap Named.names)) :
    ∃ m', addAll same debug m fs = .ok m' ∧ ∀ k, Map.get same m' k = (lookup same fs k).or (Map.get same m k) := by
  induction fs generalizing m with
  | nil => exact ⟨m, rfl, fun k => by simp [lookup]⟩
  | cons f fs ih =>
    rw [List.flatMap_cons, fresh_append] at hf
    obtain ⟨h1, h2, h3⟩ := hf
    have hok := addAs_fresh hs debug m f (hv f (by simp)) h1
    have hget := addAs_ok hs debug m f f.name hok
    cases ha : addAs same debug m f f.name with
    | mk r m1 =>
      rw [ha] at hok hget
      simp only at hok hget
      subst hok
      obtain ⟨m', hm', hk'⟩ := ih m1 (fun g hg => hv g (by simp [hg])) (fresh_congr h2 (by
        intro b hb
        rw [hget b, if_neg]
        rw [List.any_eq_true]
        rintro ⟨a, ha', hab⟩
        rw [h3 a ha' b hb] at hab
        cases hab))
      refine ⟨m', by simp [addAll, ha, hm'], fun k => ?_⟩
      have hget' : ∀ k, Map.get same m1 k = if (f.names.any fun x => same x k) = true then some f.fn else Map.get same m k := hget
      rw [hk' k, hget' k]
      unfold lookup
      rw [List.find?_cons]
      by_cases hany : (f.names.any fun x => same x k) = true
      · rw [if_pos hany]
        have hnone : fs.find? (fun f => f.names.any fun x => same x k) = none := by
          rw [List.find?_eq_none]
          intro g hg hgk
          rw [List.any_eq_true] at hany hgk
          obtain ⟨a, ha', hak⟩ := hany
          obtain ⟨b, hb, hbk⟩ := hgk
          have := h3 a ha' b (List.mem_flatMap.mpr ⟨g, hg, hb⟩)
          rw [hs.trans _ _ _ hak (hs.symm _ _ hbk)] at this
          cases this
        simp [hnone, hany]
      · rw [if_neg hany]
        simp only [Bool.not_eq_true] at hany
        simp [hany]

theorem runUnwrap_functions (K : Keys) (debug : Bool) (c : Context N) (fs : List (Named (Fn N))) (os : List (Op N)) :
    c.runUnwrap K debug (fs.map Op.addFunction ++ os) =
      (addAll K.same debug c.functions fs).bind fun m => { c with functions := m }.runUnwrap K debug os := by
  induction fs generalizing c with
  | nil => simp [addAll]
  | cons f fs ih =>
    simp only [List.map_cons, List.cons_append, Context.runUnwrap, Op.addFunction, Context.run, addAll]
    cases ha : addAs K.same debug c.functions f f.name with
    | mk r m =>
      cases r with
      | ok u => cases u; simp [Res.map]; exact ih _
      | err k => simp [Res.map]
      | panic => simp [Res.map]

theorem runUnwrap_unary (K : Keys) (debug : Bool) (c : Context N) (fs : List (Named (UnFn N))) (os : List (Op N)) :
    c.runUnwrap K debug (fs.map Op.addUnaryFunction ++ os) =
      (addAll K.same debug c.unary fs).bind fun m => { c with unary := m }.runUnwrap K debug os := by
  induction fs generalizing c with
  | nil => simp [addAll]
  | cons f fs ih =>
    simp only [List.map_cons, List.cons_append, Context.runUnwrap, Op.addUnaryFunction, Context.run, addAll]
    cases ha : addAs K.same debug c.unary f f.name with
    | mk r m =>
      cases r with
      | ok u => cases u; simp [Res.map]; exact ih _
      | err k => simp [Res.map]
      | panic => simp [Res.map]

theorem runUnwrap_binary (K : Keys) (debug : Bool) (c : Context N) (fs : List (Named (BinFn N))) (os : List (Op N)) :
    c.runUnwrap K debug (fs.map Op.addBinaryFunction ++ os) =
      (addAll K.same debug c.binary fs).bind fun m => { c with binary := m }.runUnwrap K debug os := by
  induction fs generalizing c with
  | nil => simp [addAll]
  | cons f fs ih =>
    simp only [List.map_cons, List.cons_append, Context.runUnwrap, Op.addBinaryFunction, Context.run, addAll]
    cases ha : addAs K.same debug c.binary f f.name with
    | mk r m =>
      cases r with
      | ok u => cases u; simp [Res.map]; exact ih _
      | err k => simp [Res.map]
      | panic => simp [Res.map]

/-- A constant found in a table. -/
def lookupConstant (same : Str → Str → Bool) (cs : List (Str × N)) (k : Str) : Option N := (cs.find? fun e => same e.1 k).map (·.2)

theorem runUnwrap_constants (K : Keys) (debug : Bool) (c : Context N) (cs : List (Str × N)) (os : List (Op N))
    (hvar : c.variables = []) (hv : ∀ e ∈ cs, checkTokenName e.1 = .ok ()) (hf : Fresh K.same c.constants (cs.map (·.1))) :
    ∃ m, c.runUnwrap K debug (cs.map (fun e => Op.addConstant e.1 e.2) ++ os) = { c with constants := m }.runUnwrap K debug os ∧
      ∀ k, Map.get K.same m k = (lookupConstant K.same cs k).or (Map.get K.same c.constants k) := by
  induction cs generalizing c with
  | nil => exact ⟨c.constants, rfl, fun k => by simp [lookupConstant]⟩
  | cons e cs ih =>
    have hd : debugCheck debug e.1 = .ok () := by cases debug <;> simp [debugCheck, hv e (by simp)]
    have hrun : c.run K debug (Op.addConstant e.1 e.2) = (.ok none, { c with constants := Map.insert K.same c.constants e.1 e.2 }) := by
      simp [Context.run, hd, hvar, Map.keys]
    obtain ⟨m, hm, hk⟩ := ih { c with constants := Map.insert K.same c.constants e.1 e.2 } hvar (fun x hx => hv x (by simp [hx]))
      (fresh_congr hf.2.2 (by
        intro b hb
        rw [Map.get_insert K.equiv, hf.2.1 b hb]; simp))
    refine ⟨m, ?_, fun k => ?_⟩
    · simp only [List.map_cons, List.cons_append, Context.runUnwrap, hrun]; exact hm
    · rw [hk k, Map.get_insert K.equiv]
      unfold lookupConstant
      rw [List.find?_cons]
      cases hek : K.same e.1 k with
      | true =>
        have hnone : cs.find? (fun e => K.same e.1 k) = none := by
          rw [List.find?_eq_none]
          intro g hg hgk
          have := hf.2.1 g.1 (List.mem_map.mpr ⟨g, hg, rfl⟩)
          rw [K.trans _ _ _ hek (K.symm _ _ hgk)] at this
          cases this
        simp [hnone]
      | false => simp

/-- Equality up to the case of ASCII letters. -/
def hashSame (a b : Str) : Bool := hashInput a == hashInput b

theorem hashSame_equiv : Equiv hashSame := by
  refine ⟨fun a => by simp [hashSame], fun a b h => ?_, fun a b c h h' => ?_⟩
  · simp only [hashSame, beq_iff_eq] at h ⊢; exact h.symm
  · simp only [hashSame, beq_iff_eq] at h h' ⊢; exact h.trans h'

theorem Keys.same_eq_hashSame (K : Keys) {a : Str} (ha : plainName a = true) (b : Str) : K.same a b = hashSame a b := by
  rw [Bool.eq_iff_iff, K.same_plain ha]
  simp [hashSame]

/-- Valid ASCII names without the letter K, pairwise different ignoring case. -/
def GoodNames (l : List Str) : Prop := (∀ n ∈ l, checkTokenName n = .ok () ∧ plainName n = true) ∧ (l.map hashInput).Nodup

instance (l : List Str) : Decidable (GoodNames l) :=
  inferInstanceAs (Decidable ((∀ n ∈ l, checkTokenName n = .ok () ∧ plainName n = true) ∧ (l.map hashInput).Nodup))

/-- The names of the tables are valid and pairwise different ignoring case. -/
structure Tables (cs : List (Str × N)) (bs : List (Named (BinFn N))) (us : List (Named (UnFn N))) (fs : List (Named (Fn N))) : Prop where
  constants : GoodNames (cs.map (·.1))
  binary : GoodNames (bs.flatMap Named.names)
  unary : GoodNames (us.flatMap Named.names)
  functions : GoodNames (fs.flatMap Named.names)

theorem fresh_good (K : Keys) {l : List Str} (h : GoodNames l) : Fresh K.same ([] : Map V) l := by
  obtain ⟨ha, hn⟩ := h
  induction l with
  | nil => trivial
  | cons a l ih =>
    rw [List.map_cons, List.nodup_cons] at hn
    refine ⟨rfl, ?_, ih (fun n h => ha n (by simp [h])) hn.2⟩
    intro b hb
    cases hs : K.same a b with
    | false => rfl
    | true =>
      have := (K.same_plain (ha a (by simp)).2).mp hs
      exact absurd (List.mem_map.mpr ⟨b, hb, this.symm⟩) hn.1

theorem find?_congr' {α : Type} {l : List α} {p q : α → Bool} (h : ∀ a ∈ l, p a = q a) : l.find? p = l.find? q := by
  induction l with
  | nil => rfl
  | cons a l ih =>
    rw [List.find?_cons, List.find?_cons, h a (by simp), ih fun b hb => h b (by simp [hb])]

theorem any_congr' {α : Type} {l : List α} {p q : α → Bool} (h : ∀ a ∈ l, p a = q a) : l.any p = l.any q := by
  induction l with
  | nil => rfl
  | cons a l ih => rw [List.any_cons, List.any_cons, h a (by simp), ih fun b hb => h b (by simp [hb])]

theorem lookup_plain (K : Keys) {fs : List (Named V)} (hf : GoodNames (fs.flatMap Named.names)) :
    lookup K.same fs = lookup hashSame fs := by
  funext k
  unfold lookup
  rw [find?_congr']
  intro f hfm
  exact any_congr' fun n hn => K.same_eq_hashSame (hf.1 n (List.mem_flatMap.mpr ⟨f, hfm, hn⟩)).2 k

theorem lookupConstant_plain (K : Keys) {cs : List (Str × N)} (hc : GoodNames (cs.map (·.1))) :
    lookupConstant K.same cs = lookupConstant hashSame cs := by
  funext k
  unfold lookupConstant
  rw [find?_congr']
  intro e he
  exact K.same_eq_hashSame (hc.1 e.1 (List.mem_map.mpr ⟨e, he, rfl⟩)).2 k

/-- The context with these tables and no variables. -/
def tablesCtx (config : Config) (cs : List (Str × N)) (bs : List (Named (BinFn N))) (us : List (Named (UnFn N)))
    (fs : List (Named (Fn N))) : Ctx N where
  config := config
  getVariable := fun _ => none
  getConstant := lookupConstant hashSame cs
  getFunction := lookup hashSame fs
  getUnary := lookup hashSame us
  getBinary := lookup hashSame bs

/-- A context can be built from tables of valid names that differ ignoring case, and its look-ups are those of the tables. -/
theorem build_ok (K : Keys) (debug : Bool) (config : Config) {cs : List (Str × N)} {bs : List (Named (BinFn N))}
    {us : List (Named (UnFn N))} {fs : List (Named (Fn N))} (h : Tables cs bs us fs) :
    ∃ c, (Context.withConfig config).runUnwrap K debug (buildOps cs bs us fs) = .ok c ∧ c.view K = tablesCtx config cs bs us fs := by
  unfold buildOps
  obtain ⟨m, hm, hmk⟩ := runUnwrap_constants K debug (Context.withConfig config) cs
    (bs.map Op.addBinaryFunction ++ (us.map Op.addUnaryFunction ++ fs.map Op.addFunction)) rfl
    (fun e he => (h.constants.1 e.1 (List.mem_map.mpr ⟨e, he, rfl⟩)).1) (fresh_good K h.constants)
  have mem : ∀ {W : Type} {l : List (Named W)} (f : Named W), f ∈ l → f.name ∈ l.flatMap Named.names :=
    fun f hf => List.mem_flatMap.mpr ⟨f, hf, by simp [Named.names]⟩
  obtain ⟨mb, hb, hbk⟩ := addAll_ok K.equiv debug bs [] (fun f hf => (h.binary.1 _ (mem f hf)).1) (fresh_good K h.binary)
  obtain ⟨mu, hu, huk⟩ := addAll_ok K.equiv debug us [] (fun f hf => (h.unary.1 _ (mem f hf)).1) (fresh_good K h.unary)
  obtain ⟨mf, hf, hfk⟩ := addAll_ok K.equiv debug fs [] (fun f hf => (h.functions.1 _ (mem f hf)).1) (fresh_good K h.functions)
  refine ⟨⟨[], m, mf, mu, mb, config⟩, ?_, ?_⟩
  · rw [hm, runUnwrap_binary]
    simp only [Context.withConfig, hb, Res.bind_ok]
    rw [runUnwrap_unary]
    simp only [hu, Res.bind_ok]
    have := runUnwrap_functions K debug (⟨[], m, [], mu, mb, config⟩ : Context N) fs []
    simp only [List.append_nil] at this
    rw [this]
    simp only [hf, Res.bind_ok]
    rfl
  · simp only [Context.view, tablesCtx, ← lookup_plain K h.binary, ← lookup_plain K h.unary, ← lookup_plain K h.functions,
      ← lookupConstant_plain K h.constants]
    congr 1
    · funext k; rw [hmk k]; simp [Context.withConfig, Map.get]
    · funext k; rw [hfk k]; simp [Map.get]
    · funext k; rw [huk k]; simp [Map.get]
    · funext k; rw [hbk k]; simp [Map.get]

theorem lookup_isSome (fs : List (Named V)) (k : Str) :
    (lookup same fs k).isSome = true ↔ ∃ n ∈ fs.flatMap Named.names, same n k = true := by
  unfold lookup
  rw [Option.isSome_map, List.find?_isSome]
  simp only [List.any_eq_true, List.mem_flatMap]
  constructor
  · rintro ⟨f, hf, n, hn, h⟩; exact ⟨n, ⟨f, hf, hn⟩, h⟩
  · rintro ⟨n, ⟨f, hf, hn⟩, h⟩; exact ⟨f, hf, n, hn, h⟩

theorem lookup_some {fs : List (Named V)} {k : Str} {v : V} (h : lookup same fs k = some v) :
    ∃ f ∈ fs, v = f.fn ∧ ∃ n ∈ f.names, same n k = true := by
  unfold lookup at h
  cases hf : fs.find? (fun f => f.names.any fun x => same x k) with
  | none => simp [hf] at h
  | some f =>
    rw [hf] at h
    have h1 := List.find?_some hf
    rw [List.any_eq_true] at h1
    exact ⟨f, List.mem_of_find?_eq_some hf, by simpa using h.symm, h1⟩

/-- In a table of pairwise different names, a name finds its function. -/
theorem lookup_mem {fs : List (Named V)} (hf : GoodNames (fs.flatMap Named.names)) {f : Named V}
    (hm : f ∈ fs) {n k : Str} (hn : n ∈ f.names) (hk : hashInput n = hashInput k) : lookup hashSame fs k = some f.fn := by
  obtain ⟨-, hf⟩ := hf
  induction fs with
  | nil => cases hm
  | cons g fs ih =>
    rw [List.flatMap_cons, List.map_append, List.nodup_append] at hf
    unfold lookup
    rw [List.find?_cons]
    rcases List.mem_cons.mp hm with rfl | hm
    · have : (f.names.any fun x => hashSame x k) = true := List.any_eq_true.mpr ⟨n, hn, by simp [hashSame, hk]⟩
      simp [this]
    · have : (g.names.any fun x => hashSame x k) = false := by
        rw [List.any_eq_false]
        intro a ha hak
        simp only [hashSame, beq_iff_eq] at hak
        exact hf.2.2 _ (List.mem_map.mpr ⟨a, ha, rfl⟩) _ (List.mem_map.mpr ⟨n, List.mem_flatMap.mpr ⟨f, hm, hn⟩, rfl⟩) (hak.trans hk.symm)
      simp only [this]
      exact ih hm hf.2.1

theorem lookupConstant_mem {cs : List (Str × N)} (hc : GoodNames (cs.map (·.1))) {e : Str × N} (hm : e ∈ cs) {k : Str}
    (hk : hashInput e.1 = hashInput k) : lookupConstant hashSame cs k = some e.2 := by
  obtain ⟨-, hc⟩ := hc
  induction cs with
  | nil => cases hm
  | cons g cs ih =>
    rw [List.map_cons, List.map_cons, List.nodup_cons] at hc
    unfold lookupConstant
    rw [List.find?_cons]
    rcases List.mem_cons.mp hm with rfl | hm
    · simp [hashSame, hk]
    · have : hashSame g.1 k = false := by
        cases hs : hashSame g.1 k with
        | false => rfl
        | true =>
          simp only [hashSame, beq_iff_eq] at hs
          exact absurd (List.mem_map.mpr ⟨e.1, List.mem_map.mpr ⟨e, hm, rfl⟩, hk.trans hs.symm⟩) hc.1
      simp only [this]
      exact ih hm hc.2

theorem lookupConstant_some {cs : List (Str × N)} {k : Str} {v : N} (h : lookupConstant same cs k = some v) :
    ∃ e ∈ cs, v = e.2 ∧ same e.1 k = true := by
  unfold lookupConstant at h
  cases hf : cs.find? (fun e => same e.1 k) with
  | none => simp [hf] at h
  | some e =>
    rw [hf] at h
    exact ⟨e, List.mem_of_find?_eq_some hf, by simpa using h.symm, by simpa using List.find?_some hf⟩

end Prexel
