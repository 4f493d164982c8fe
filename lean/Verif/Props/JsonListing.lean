import Verif.Model.JsonListing
import Verif.Spec.JsonListing
import Verif.Props.Query
import Verif.Props.Info
/-!
# C152: the listings as JSON
-/

namespace Prexel
open Json

namespace Json

theorem isString_unique {v : Json} {a b : Str} (h : IsString v a) (h' : IsString v b) : a = b := by
  obtain ⟨r, rfl, h⟩ := h
  obtain ⟨r', e, h'⟩ := h'
  cases e
  exact spells_unique h h'

theorem forall₂_unique {α β : Type} {P : α → β → Prop} (hP : ∀ v a b, P v a → P v b → a = b) {vs : List α} {l l' : List β}
    (h : List.Forall₂ P vs l) (h' : List.Forall₂ P vs l') : l = l' := by
  induction h generalizing l' with
  | nil => cases h'; rfl
  | cons hx _ ih =>
    cases h' with
    | cons hy h2 => rw [hP _ _ _ hx hy, ih h2]

theorem isFnInfo_unique (v : Json) (i j : FnInfo) (h : IsFnInfo v i) (h' : IsFnInfo v j) : i = j := by
  obtain ⟨ms, a, bs, d, rfl, hn, h1, h2, h3⟩ := h
  obtain ⟨ms', a', bs', d', e, hn', h1', h2', h3'⟩ := h'
  cases e
  cases named_unique hn hn'
  obtain ⟨n, al, de⟩ := i
  obtain ⟨n', al', de'⟩ := j
  simp only at h1 h2 h3 h1' h2' h3'
  rw [isString_unique h1 h1', forall₂_unique (P := IsString) (fun _ _ _ => isString_unique) h2 h2', optional_unique h3 h3']

theorem isConstant_unique (v : Json) (e e' : Str × Str) (h : IsConstant v e) (h' : IsConstant v e') : e = e' := by
  obtain ⟨ms, a, b, rfl, hn, h1, h2⟩ := h
  obtain ⟨ms', a', b', e, hn', h1', h2'⟩ := h'
  cases e
  cases named_unique hn hn'
  exact Prod.ext (isString_unique h1 h1') (isString_unique h2 h2')

theorem quoted_writes (s : Str) : ∃ v, Writes (quoted s) v ∧ IsString v s := ⟨_, .str (spells_raw (escape_all s)), _, rfl, escape_all s⟩

theorem items_writes {l : List Str} {vs : List Json} (hl : l ≠ []) (h : List.Forall₂ Writes l vs) : WritesItems ([','].intercalate l) vs := by
  induction h with
  | nil => exact absurd rfl hl
  | @cons s v l vs hs hr ih =>
    cases l with
    | nil =>
      cases hr
      have := WritesItems.one (b := []) (b' := []) blank_nil hs blank_nil
      simpa using this
    | cons s' l =>
      have := WritesItems.more (b := []) (b' := []) blank_nil hs blank_nil (ih (by simp))
      rw [List.intercalate_cons_cons]
      simpa using this

theorem array_writes {l : List Str} {vs : List Json} (h : List.Forall₂ Writes l vs) : Writes (array l) (.arr vs) := by
  cases h with
  | nil => exact .noItems (b := []) blank_nil
  | cons hs hr => exact .arr (items_writes (by simp) (.cons hs hr))

/-- The elements of a list, each written so that it can be read. -/
theorem list_writes {β : Type} {write : β → Str} {P : Json → β → Prop} (h : ∀ x, ∃ v, Writes (write x) v ∧ P v x) (l : List β) :
    ∃ vs, List.Forall₂ Writes (l.map write) vs ∧ List.Forall₂ P vs l := by
  induction l with
  | nil => exact ⟨[], .nil, .nil⟩
  | cons x l ih =>
    obtain ⟨v, h1, h2⟩ := h x
    obtain ⟨vs, h3, h4⟩ := ih
    exact ⟨v :: vs, .cons h1 h3, .cons h2 h4⟩

theorem fnInfo_writes (i : FnInfo) : ∃ v, Writes i.json v ∧ IsFnInfo v i := by
  obtain ⟨a, ha, oa⟩ := quoted_writes i.name
  obtain ⟨bs, hb, ob⟩ := list_writes quoted_writes i.aliases
  obtain ⟨d, hd, od⟩ := quotedOption_writes i.description
  refine ⟨.obj [(Prexel.str "name", a), (Prexel.str "aliases", .arr bs), (Prexel.str "description", d)], ?_, _, a, bs, d, rfl,
    .cons ⟨plain_spells (s := Prexel.str "name") (by decide), rfl⟩ (.cons ⟨plain_spells (s := Prexel.str "aliases") (by decide), rfl⟩
      (.cons ⟨plain_spells (s := Prexel.str "description") (by decide), rfl⟩ .nil)), oa, ob, od⟩
  have := Writes.obj (.more (b := []) (b1 := []) (b2 := []) (b3 := []) blank_nil (plain_raw (s := Prexel.str "name") (by decide)) blank_nil blank_nil ha blank_nil
    (.more (b := []) (b1 := []) (b2 := []) (b3 := []) blank_nil (plain_raw (s := Prexel.str "aliases") (by decide)) blank_nil blank_nil (array_writes hb) blank_nil
    (.one (b := []) (b1 := []) (b2 := []) (b3 := []) blank_nil (plain_raw (s := Prexel.str "description") (by decide)) blank_nil blank_nil hd blank_nil)))
  unfold FnInfo.json
  simpa [Prexel.str] using this

theorem constant_writes (e : Str × Str) : ∃ v, Writes (constantJson e) v ∧ IsConstant v e := by
  obtain ⟨a, ha, oa⟩ := quoted_writes e.1
  obtain ⟨b, hb, ob⟩ := quoted_writes e.2
  refine ⟨.obj [(Prexel.str "name", a), (Prexel.str "value", b)], ?_, _, a, b, rfl,
    .cons ⟨plain_spells (s := Prexel.str "name") (by decide), rfl⟩ (.cons ⟨plain_spells (s := Prexel.str "value") (by decide), rfl⟩ .nil), oa, ob⟩
  have := Writes.obj (.more (b := []) (b1 := []) (b2 := []) (b3 := []) blank_nil (plain_raw (s := Prexel.str "name") (by decide)) blank_nil blank_nil ha blank_nil
    (.one (b := []) (b1 := []) (b2 := []) (b3 := []) blank_nil (plain_raw (s := Prexel.str "value") (by decide)) blank_nil blank_nil hb blank_nil))
  unfold constantJson
  simpa [Prexel.str] using this

theorem isText_of {s : Str} {v : Json} (h : Writes s v) : IsText s v := ⟨[], s, [], blank_nil, h, blank_nil, by simp⟩

theorem lists_functions (l l' : List FnInfo) : ListsFunctions (array (l.map FnInfo.json)) l' ↔ l' = l := by
  obtain ⟨vs, h1, h2⟩ := list_writes fnInfo_writes l
  constructor
  · rintro ⟨vs', h3, h4⟩
    cases text_unique (isText_of (array_writes h1)) h3
    exact forall₂_unique isFnInfo_unique h4 h2
  · rintro rfl; exact ⟨vs, isText_of (array_writes h1), h2⟩

theorem lists_constants (l l' : List (Str × Str)) : ListsConstants (array (l.map constantJson)) l' ↔ l' = l := by
  obtain ⟨vs, h1, h2⟩ := list_writes constant_writes l
  constructor
  · rintro ⟨vs', h3, h4⟩
    cases text_unique (isText_of (array_writes h1)) h3
    exact forall₂_unique isConstant_unique h4 h2
  · rintro rfl; exact ⟨vs, isText_of (array_writes h1), h2⟩

end Json

variable {D F T : Type}

/-- The number type that a query asks for: what it says, otherwise decimals. -/
def QueryType (query : Str) (t : NumberType) : Prop :=
  (∃ name, (Prexel.str name, t) ∈ Json.typeNames ∧ QuerySays query "type" name) ∨
  ((∀ name t, (Prexel.str name, t) ∈ Json.typeNames → ¬ QuerySays query "type" name) ∧ t = .decimal)

theorem queryType_says (query : Str) : ∃ t, QueryType query t ∧ (queryType query).getD .decimal = t ∧ ∀ t', QueryType query t' → t' = t := by
  cases h : queryType query with
  | some t =>
    have h1 := (C150_type query t).1 h
    refine ⟨t, .inl h1, rfl, ?_⟩
    rintro t' (h2 | ⟨h2, rfl⟩)
    · rw [(C150_type query t').2 h2] at h; cases h; rfl
    · obtain ⟨name, h3, h4⟩ := h1; exact absurd h4 (h2 name t h3)
  | none =>
    refine ⟨.decimal, .inr ⟨fun name t h1 h2 => ?_, rfl⟩, rfl, ?_⟩
    · rw [(C150_type query t).2 ⟨name, h1, h2⟩] at h; cases h
    · rintro t' (h2 | ⟨h2, rfl⟩)
      · rw [(C150_type query t').2 h2] at h; cases h
      · rfl

/-- The three listings: the answer has the status 200, and its body is a JSON text that lists exactly the functions (operators, constants) of the context of
the number type that the query asks for, each with its name, its aliases and its description (its value), in their order; nothing else is listed. -/
theorem C152_listing (W : World D F T) (query : Str) (t : NumberType) (ht : QueryType query t) (I : Infos) (hI : W.serverInfos (some t) = .ok I) :
    (∃ body, W.getFunctions query = .ok (200, body) ∧ ∀ l, ListsFunctions body l ↔ l = I.functions) ∧
    (∃ body, W.getOperators query = .ok (200, body) ∧ ∀ l, ListsFunctions body l ↔ l = I.operators) ∧
    (∃ body, W.getConstants query = .ok (200, body) ∧ ∀ l, ListsConstants body l ↔ l = I.constants) := by
  obtain ⟨t', h1, h2, h3⟩ := queryType_says query
  cases h3 t ht
  have hI' : W.serverInfos (queryType query) = .ok I := by
    rw [← hI]; unfold World.serverInfos; rw [h2]; rfl
  refine ⟨⟨_, ?_, fun l => lists_functions _ l⟩, ⟨_, ?_, fun l => lists_functions _ l⟩, ⟨_, ?_, fun l => lists_constants _ l⟩⟩
  · rw [World.getFunctions, hI']; rfl
  · rw [World.getOperators, hI']; rfl
  · rw [World.getConstants, hI']; rfl

/-- Every query asks for exactly one number type. -/
theorem C152_total (query : Str) : ∃ t, QueryType query t ∧ ∀ t', QueryType query t' → t' = t := by
  obtain ⟨t, h1, -, h3⟩ := queryType_says query
  exact ⟨t, h1, h3⟩

/-! ## A listing -/

example : QueryType (Prexel.str "x&type=b%69nary") .binary :=
  .inl ⟨"binary", by simp [Json.typeNames], by
    obtain ⟨name, h1, h2⟩ := (C150_type _ .binary).1 (show queryType (Prexel.str "x&type=b%69nary") = some .binary by decide +kernel)
    have : name = "binary" := by
      unfold Json.typeNames at h1
      simp only [List.mem_cons, Prod.mk.injEq, List.not_mem_nil, or_false, reduceCtorEq, and_false, false_or, and_true] at h1
      exact String.toList_inj.1 h1
    rwa [this] at h2⟩

example : (Demo.world true).getFunctions (Prexel.str "x&type=b%69nary") = .ok (200, Prexel.str "[]") ∧
    ∃ body, (Demo.world true).getOperators (Prexel.str "type=binary") = .ok (200, body) ∧
      (Prexel.str "{\"name\":\"equal\",\"aliases\":[\"eq\",\"equal\"],\"description\":\"Returns 1 if the given values are equal, 0 otherwise.\"},") <:+: body := by
  refine ⟨by decide +kernel, _, rfl, ?_⟩
  decide +kernel

end Prexel
