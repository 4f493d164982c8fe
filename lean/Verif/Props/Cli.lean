import Verif.Spec.Cli
import Verif.Props.Listing
import Verif.Props.Apps
import Verif.Lemmas.Info

/-!
# The commands of the `eval` program (C109, C110)
-/
namespace Prexel
variable {N D F T : Type}

theorem printed_map (s : Str) (st : Style) : printed (s.map fun ch => (ch, st)) = s := by simp [printed, Function.comp_def]
theorem printed_append (a b : List Cell) : printed (a ++ b) = printed a ++ printed b := by simp [printed]

/-! ## C109 -/

theorem cliEval_result (W : World D F T) (t : NumberType) (s text : Str) : W.cliEval t s = .result text ↔ W.CliEvaluates t s text := by
  cases t <;> exact serve_result _ _ _ _ [] List.nodup_nil _ _

/-- C109, the part that holds. `eval` writes the text of the result and a line end to standard output, and nothing else, exactly if the library
evaluates the expression; colours are not used for it. Otherwise it writes nothing to standard output. Missing: the exit status, see the
counterexample. -/
theorem C109_stdout_partial (W : World D F T) (colors : Bool) (message : Failure → Str) (t : NumberType) (s : Str) :
    (∀ text, W.CliEvaluates t s text →
      (W.main colors message (.eval t s)).streams.out = (text ++ ['\n']).map (fun ch => (ch, .plain)) ∧
      (W.main colors message (.eval t s)).streams.err = []) ∧
    ((¬ ∃ text, W.CliEvaluates t s text) → (W.main colors message (.eval t s)).streams.out = []) := by
  constructor
  · intro text h
    rw [← cliEval_result] at h
    simp only [World.main, h]
    cases colors <;> simp [Streams.writeln, Streams.write, Streams.new]
  · intro h
    simp only [← cliEval_result] at h
    simp only [World.main]
    cases hr : W.cliEval t s with
    | result text => exact absurd ⟨text, hr⟩ h
    | error e => cases colors <;> simp [Streams.writelnErr, Streams.writeErr, Streams.new, Streams.fg]
    | panic => rfl

/-- C109. An error is written to standard error with a line end, in red unless colours are off, and to standard error only. -/
theorem C109_stderr (W : World D F T) (colors : Bool) (message : Failure → Str) (t : NumberType) (s : Str) (e : Failure)
    (h : W.cliEval t s = .error e) :
    (W.main colors message (.eval t s)).streams.out = [] ∧
    (W.main colors message (.eval t s)).streams.err =
      (message e).map (fun ch => (ch, if colors then ⟨some .red, none⟩ else .plain)) ++ [('\n', .plain)] := by
  simp only [World.main, h]
  cases colors <;> simp [Streams.writelnErr, Streams.writeErr, Streams.new, Streams.fg, Style.plain]

/-- `1 / 0` and `1 + 2`: both happen. -/
example : (Demo.world true).cliEval .integer (str "1 / 0") = .error (.library .divisionByZero) ∧
    (Demo.world true).CliEvaluates .integer (str "1 + 2") (str "3") := by
  refine ⟨by decide +kernel, ?_⟩
  rw [← cliEval_result]
  decide +kernel

/-- C109 fails: the exit status of `eval "1 / 0"` is that of `eval "1 + 2"`, 0. -/
theorem C109_status_counterexample (colors : Bool) (message : Failure → Str) :
    ((Demo.world true).main colors message (.eval .integer (str "1 / 0"))).status = 0 ∧
    ((Demo.world true).main colors message (.eval .integer (str "1 + 2"))).status = 0 := by
  have h1 : (Demo.world true).cliEval .integer (str "1 / 0") = .error (.library .divisionByZero) := by decide +kernel
  have h2 : (Demo.world true).cliEval .integer (str "1 + 2") = .result (str "3") := by decide +kernel
  simp [World.main, h1, h2]

/-- C109. No expression makes it fail with a status unless it panics. -/
theorem C109_status (W : World D F T) (colors : Bool) (message : Failure → Str) (t : NumberType) (s : Str) :
    (W.main colors message (.eval t s)).status ≠ 0 ↔ W.cliEval t s = .panic := by
  simp only [World.main]
  cases W.cliEval t s <;> simp

/-! ## C110 -/

theorem foldl_max_ge (l : List Nat) (a : Nat) : a ≤ l.foldl max a ∧ ∀ x ∈ l, x ≤ l.foldl max a := by
  induction l generalizing a with
  | nil => simp
  | cons y l ih =>
    obtain ⟨h1, h2⟩ := ih (max a y)
    refine ⟨by simp only [List.foldl_cons]; omega, fun x hx => ?_⟩
    simp only [List.mem_cons] at hx
    rcases hx with rfl | hx
    · simp only [List.foldl_cons]; omega
    · exact h2 x hx

theorem foldl_max_mem (l : List Nat) (a : Nat) : l.foldl max a = a ∨ l.foldl max a ∈ l := by
  induction l generalizing a with
  | nil => simp
  | cons y l ih =>
    simp only [List.foldl_cons, List.mem_cons]
    rcases ih (max a y) with h | h
    · rw [h]; omega
    · exact .inr (.inr h)

/-- The names are ASCII, not empty, and contain no white space. -/
def PlainNames (rows : List (Str × Str)) : Prop := ∀ r ∈ rows, r.1 ≠ [] ∧ ∀ c ∈ r.1, c.toNat < 128 ∧ isWhitespace c = false

theorem byteLen_ascii (s : Str) (h : ∀ c ∈ s, c.toNat < 128) : byteLen s = s.length := by
  induction s with
  | nil => rfl
  | cons c s ih =>
    have hc := h c (by simp)
    have : c.utf8Size = 1 := by
      unfold Char.utf8Size
      have : c.val ≤ 0x7F := by rw [UInt32.le_iff_toNat_le]; simp; omega
      simp [this]
    simp only [byteLen, List.map_cons, List.sum_cons, this, List.length_cons] at ih ⊢
    rw [ih fun x hx => h x (by simp [hx])]
    omega

theorem writeTable_text (colors : Bool) (rows all : List (Str × Str)) (s : Streams) :
    let r := rows.foldl (fun s r => (((s.fg .blue).write colors (padRight byteLen r.1 (tableWidth all))).fg .white).writeln colors r.2) s
    printed r.out = printed s.out ++ rows.flatMap (fun r => padRight byteLen r.1 (tableWidth all) ++ r.2 ++ ['\n']) ∧ r.err = s.err := by
  induction rows generalizing s with
  | nil => simp
  | cons r rows ih =>
    simp only [List.foldl_cons, List.flatMap_cons]
    obtain ⟨h1, h2⟩ := ih ((((s.fg .blue).write colors (padRight byteLen r.1 (tableWidth all))).fg .white).writeln colors r.2)
    refine ⟨h1.trans ?_, h2.trans ?_⟩
    · cases colors <;> simp [Streams.writeln, Streams.write, Streams.fg, printed_append, printed_map] <;> simp [printed]
    · cases colors <;> simp [Streams.writeln, Streams.write, Streams.fg]

/-- A table with plain names: the values begin in one column, four columns behind the longest name. -/
theorem table_columns (colors : Bool) (rows : List (Str × Str)) (h : PlainNames rows) :
    ∃ k, (∀ r ∈ rows, r.1.length + 4 ≤ k) ∧ (rows ≠ [] → ∃ r ∈ rows, r.1.length + 4 = k) ∧
      printed (writeTable colors rows).out = rows.flatMap (rowText k) ∧ (writeTable colors rows).err = [] := by
  have hlen : ∀ r ∈ rows, byteLen r.1 = r.1.length := fun r hr => byteLen_ascii _ fun c hc => ((h r hr).2 c hc).1
  have hge : ∀ r ∈ rows, r.1.length + 4 ≤ tableWidth rows := by
    intro r hr
    have := (foldl_max_ge (rows.map fun r => byteLen r.1) 0).2 (byteLen r.1) (List.mem_map.2 ⟨r, hr, rfl⟩)
    rw [hlen r hr] at this
    unfold tableWidth
    omega
  refine ⟨tableWidth rows, hge, fun hne => ?_, ?_, (writeTable_text colors rows rows .new).2⟩
  · rcases foldl_max_mem (rows.map fun r => byteLen r.1) 0 with h0 | h0
    · cases rows with
      | nil => exact absurd rfl hne
      | cons r rows =>
        have := hge r (by simp)
        unfold tableWidth at this ⊢
        rw [h0] at this ⊢
        exact ⟨r, by simp, by omega⟩
    · obtain ⟨r, hr, he⟩ := List.mem_map.1 h0
      refine ⟨r, hr, ?_⟩
      unfold tableWidth
      rw [← he, hlen r hr]
  · have := (writeTable_text colors rows rows .new).1
    refine this.trans ?_
    simp only [Streams.new, printed, List.map_nil, List.nil_append]
    simp only [List.flatMap]
    congr 1
    refine List.map_congr_left fun r hr => ?_
    have h1 := hge r hr
    simp only [padRight, rowText, hlen r hr]
    rw [if_pos (by omega)]

/-- Names that are ASCII, not empty, and contain no white space. -/
def Plain (n : Str) : Prop := n ≠ [] ∧ ∀ c ∈ n, c.toNat < 128 ∧ isWhitespace c = false

theorem plain_listing {K : Keys} {c : Context N} {cs : List (Str × N)} {bs : List (Named (BinFn N))} {us : List (Named (UnFn N))}
    {fs : List (Named (Fn N))} (hk : KeysIn K c cs bs us fs) (hT : Tables cs bs us fs) (shown : N → Str) :
    (∀ n ∈ (c.listing shown).functions, Plain n) ∧ (∀ n ∈ (c.listing shown).operators, Plain n) ∧
    ∀ e ∈ (c.listing shown).constants, Plain e.1 := by
  have good : ∀ {l : List Str} {n : Str}, GoodNames l → n ∈ l → n ≠ [] ∧ ∀ c ∈ n, c.toNat < 128 ∧ isWhitespace c = false := by
    intro l n hg hn
    obtain ⟨h1, h2⟩ := hg.1 n hn
    have h3 := plainName_ascii h2
    unfold checkTokenName at h1
    refine ⟨?_, fun c hc => ⟨?_, ?_⟩⟩
    · rintro rfl; simp at h1
    · have := List.all_eq_true.1 h3 c hc
      simpa [isAscii] using this
    · cases hw : isWhitespace c with
      | false => rfl
      | true =>
        split at h1
        · cases h1
        · rw [if_pos (List.any_eq_true.2 ⟨c, hc, hw⟩)] at h1; cases h1
  refine ⟨fun n hn => good hT.functions (hk.functions _ hn), fun n hn => ?_, fun r hr => ?_⟩
  · simp only [Context.listing, List.mem_append] at hn
    rcases hn with hn | hn
    · exact good hT.binary (hk.binary _ hn)
    · exact good hT.unary (hk.unary _ hn)
  · simp only [Context.listing, List.mem_map] at hr
    obtain ⟨e, he, rfl⟩ := hr
    exact good hT.constants (hk.constants _ (List.mem_map.2 ⟨e, he, rfl⟩))

theorem listed_plain (W : World D F T) {t : NumberType} {L : Listing} (hL : W.cliListing t = .ok L) :
    (∀ n ∈ L.functions, Plain n) ∧ (∀ n ∈ L.operators, Plain n) ∧ ∀ e ∈ L.constants, Plain e.1 := by
  cases t with
  | decimal =>
    obtain ⟨c0, h0, rfl⟩ := Res.map_eq_ok hL
    exact plain_listing (build_keys h0) (decimal_tables W.dec W.f) _
  | float =>
    obtain ⟨c0, h0, rfl⟩ := Res.map_eq_ok hL
    cases hpi : (W.f.num W.floatNum).fromF64 W.f.pi with
    | none => simp [Context.unchecked, hpi] at h0
    | some pi =>
      cases he : (W.f.num W.floatNum).fromF64 W.f.e with
      | none => simp [Context.unchecked, hpi, he] at h0
      | some e =>
        simp only [Context.unchecked, hpi, he] at h0
        exact plain_listing (build_keys h0) (unchecked_tables _ _ _ _) _
  | integer =>
    obtain ⟨c0, h0, rfl⟩ := Res.map_eq_ok hL
    cases hpi : W.intNum.fromF64 W.f.pi with
    | none => simp [Context.checked, hpi] at h0
    | some pi =>
      cases he : W.intNum.fromF64 W.f.e with
      | none => simp [Context.checked, hpi, he] at h0
      | some e =>
        simp only [Context.checked, hpi, he] at h0
        exact plain_listing (build_keys h0) (checked_tables _ _ _ _ _) _
  | complex =>
    obtain ⟨c0, h0, rfl⟩ := Res.map_eq_ok hL
    obtain ⟨pi, e, hpi, he, hv0⟩ := complex_inv h0
    simp only [Cx.newContext, Cx.context, hpi, he] at h0
    exact plain_listing (build_keys h0) (complex_tables W.cx _ _) _
  | binary =>
    obtain ⟨c0, h0, rfl⟩ := Res.map_eq_ok hL
    exact plain_listing (binary_keys h0) (binary_tables W.debug) _

/-- C110. `constants`, `operators` and `functions` print one row for each entry of the listing, in its order, and nothing else: the name, blanks, the
value or description, which begins in the same column in every row, four columns behind the longest name. Names contain no blanks. Standard
error stays empty and the exit status is 0, with and without colours. -/
theorem C110_table (W : World D F T) (colors : Bool) (message : Failure → Str) (cmd : Command) (hc : cmd.lists) (I : Infos)
    (hI : W.cliInfos cmd.type = .ok I) :
    ∃ k, (∀ r ∈ I.rows cmd, r.1.length + 4 ≤ k ∧ r.1 ≠ [] ∧ ∀ ch ∈ r.1, isWhitespace ch = false) ∧
      (I.rows cmd ≠ [] → ∃ r ∈ I.rows cmd, r.1.length + 4 = k) ∧
      printed (W.main colors message cmd).streams.out = (I.rows cmd).flatMap (rowText k) ∧
      (W.main colors message cmd).streams.err = [] ∧ (W.main colors message cmd).status = 0 := by
  have hL : W.cliListing cmd.type = .ok I.listing := by rw [← cliInfos_listing, hI]; rfl
  obtain ⟨g1, g2, g3⟩ := listed_plain W hL
  have hp : PlainNames (I.rows cmd) := by
    intro r hr
    cases cmd with
    | eval => exact hc.elim
    | constants => exact g3 r hr
    | operators =>
      obtain ⟨i, hi, rfl⟩ := List.mem_map.1 hr
      exact g2 _ (List.mem_map.2 ⟨i, hi, rfl⟩)
    | functions =>
      obtain ⟨i, hi, rfl⟩ := List.mem_map.1 hr
      exact g1 _ (List.mem_map.2 ⟨i, hi, rfl⟩)
  obtain ⟨k, h1, h2, h3, h4⟩ := table_columns colors _ hp
  refine ⟨k, fun r hr => ⟨h1 r hr, (hp r hr).1, fun ch hch => ((hp r hr).2 ch hch).2⟩, h2, ?_⟩
  cases cmd with
  | eval => exact hc.elim
  | _ => simp only [World.main, Command.type] at hI ⊢; rw [hI]; exact ⟨h3, h4, rfl⟩

theorem writeTable_cells (colors : Bool) (rows all : List (Str × Str)) (s : Streams) (hs : s.style = .plain) :
    (rows.foldl (fun s r => (((s.fg .blue).write colors (padRight byteLen r.1 (tableWidth all))).fg .white).writeln colors r.2) s).out =
      s.out ++ rows.flatMap fun r =>
        if colors then (padRight byteLen r.1 (tableWidth all)).map (fun ch => (ch, ⟨some .blue, none⟩)) ++ r.2.map (fun ch => (ch, ⟨some .white, none⟩)) ++
          [('\n', ⟨none, none⟩)]
        else (padRight byteLen r.1 (tableWidth all) ++ r.2 ++ ['\n']).map fun ch => (ch, ⟨none, none⟩) := by
  cases colors with
  | true =>
    induction rows generalizing s with
    | nil => simp
    | cons r rows ih =>
      simp only [List.foldl_cons, List.flatMap_cons]
      rw [ih _ (by simp [Streams.writeln, Streams.write])]
      simp [Streams.writeln, Streams.write, Streams.fg, hs, Style.plain]
  | false =>
    clear hs
    induction rows generalizing s with
    | nil => simp
    | cons r rows ih =>
      simp only [List.foldl_cons, List.flatMap_cons]
      rw [ih]
      simp [Streams.writeln, Streams.write, Streams.fg, Style.plain]

/-- C110. With colours the names are blue and the values white, up to the end of the line; without there are none. -/
theorem C110_colours (W : World D F T) (message : Failure → Str) (cmd : Command) (hc : cmd.lists) (I : Infos) (hI : W.cliInfos cmd.type = .ok I) :
    ∃ k, (W.main true message cmd).streams.out = (I.rows cmd).flatMap (rowCells k) ∧
      (W.main false message cmd).streams.out = ((I.rows cmd).flatMap (rowText k)).map fun ch => (ch, ⟨none, none⟩) := by
  have hL : W.cliListing cmd.type = .ok I.listing := by rw [← cliInfos_listing, hI]; rfl
  obtain ⟨g1, g2, g3⟩ := listed_plain W hL
  have hp : PlainNames (I.rows cmd) := by
    intro r hr
    cases cmd with
    | eval => exact hc.elim
    | constants => exact g3 r hr
    | operators =>
      obtain ⟨i, hi, rfl⟩ := List.mem_map.1 hr
      exact g2 _ (List.mem_map.2 ⟨i, hi, rfl⟩)
    | functions =>
      obtain ⟨i, hi, rfl⟩ := List.mem_map.1 hr
      exact g1 _ (List.mem_map.2 ⟨i, hi, rfl⟩)
  have hpad : ∀ r ∈ I.rows cmd, padRight byteLen r.1 (tableWidth (I.rows cmd)) =
      r.1 ++ List.replicate (tableWidth (I.rows cmd) - r.1.length) ' ' := by
    intro r hr
    have hlen : byteLen r.1 = r.1.length := byteLen_ascii _ fun c hc => ((hp r hr).2 c hc).1
    have := (foldl_max_ge ((I.rows cmd).map fun r => byteLen r.1) 0).2 (byteLen r.1) (List.mem_map.2 ⟨r, hr, rfl⟩)
    simp only [padRight, hlen]
    rw [if_pos]
    unfold tableWidth
    omega
  have hw : ∀ colors, (W.main colors message cmd).streams.out = (writeTable colors (I.rows cmd)).out := by
    intro colors
    cases cmd with
    | eval => exact hc.elim
    | _ => simp only [World.main, Command.type] at hI ⊢; rw [hI]
  refine ⟨tableWidth (I.rows cmd), ?_, ?_⟩
  · rw [hw, writeTable, writeTable_cells true _ _ _ rfl]
    simp only [Streams.new, List.nil_append, if_true, List.flatMap]
    congr 1
    exact List.map_congr_left fun r hr => by rw [hpad r hr]; rfl
  · rw [hw, writeTable, writeTable_cells false _ _ _ rfl]
    simp only [Streams.new, List.nil_append, Bool.false_eq_true, if_false, List.flatMap, List.map_flatten, List.map_map]
    congr 1
    exact List.map_congr_left fun r hr => by
      rw [hpad r hr]
      simp [rowText]

/-- C110. The rows are the constants with their values, and the operators and functions with their descriptions, which are those that the server
lists (the empty text if there is none). Names and constants are those of the listing. -/
theorem C110_rows (W : World D F T) (t : NumberType) (I : Infos) (hI : W.cliInfos t = .ok I) :
    I.rows (.constants t) = I.constants ∧ I.rows (.operators t) = I.operators.map (fun i => (i.name, i.description.getD [])) ∧
    I.rows (.functions t) = I.functions.map (fun i => (i.name, i.description.getD [])) ∧
    W.cliListing t = .ok ⟨I.functions.map (·.name), I.operators.map (·.name), I.constants⟩ :=
  ⟨rfl, rfl, rfl, by rw [← cliInfos_listing, hI]; rfl⟩

/-- `eval constants --type integer`, with the toy float's `PI` and `E`. -/
example : printed ((Demo.world true).main true (fun _ => []) (.constants .integer)).streams.out = str "PI    3\nE     2\n" := by
  decide +kernel

/-- `eval operators --type binary`: the last rows. -/
example : (str "not         Returns the bitwise NOT of the given value.\n~           Returns the bitwise NOT of the given value.\n").isSuffixOf
    (printed ((Demo.world true).main true (fun _ => []) (.operators .binary)).streams.out) = true := by
  decide +kernel

end Prexel
