import Verif.Props.Terminal
/-!
# The farewell behind a long line (C105)
-/

namespace Prexel

/-- C105, counterexample to its last part: on a terminal of 20 columns the digits 1 to 9, entered twice, take two rows. Esc writes the farewell over
the second row only: the first still shows what was being typed. On a terminal of 10 columns the farewell itself does not fit into the last row. -/
theorem C105_row_counterexample :
    (∃ d, (evalLook ⟨20, fun _ => 1⟩ true).run (fun (s : Unit) _ => .ok (.none, s, [])) 100 () ((str "123456789123456789").map .char ++ [.esc]) =
        .ok (false, d) ∧ Shows d.console.screen (str ">>> Bye bye!") ∧ str ">>> 1234567891234567" ∈ d.console.screen.read) ∧
    (∃ d, (evalLook Demo.narrow true).run (fun (s : Unit) _ => .ok (.none, s, [])) 100 () [.esc] = .ok (false, d) ∧
      Shows d.console.screen (str "e!")) :=
  ⟨⟨_, rfl, ⟨⟨0, by decide +kernel⟩, by decide +kernel⟩, by decide +kernel⟩, ⟨_, rfl, ⟨⟨0, by decide +kernel⟩, by decide +kernel⟩⟩⟩

end Prexel
