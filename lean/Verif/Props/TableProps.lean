import Verif.Model.TableInit
import Verif.Model.TokTables
import Verif.Model.Parser
/-!
C35, the tables: the parser's tables are stored in the program as compressed bytes that the package unpacks when it is initialised. Unpacking does not
panic, and it yields the tables that the other theorems about reading are about.
-/
namespace Gographviz.Props
open Gographviz Gographviz.Parse

deriving instance DecidableEq for ActionRow

/-- The action table as one dense array of 128 rows of 36 entries. -/
def denseActions : List ActionRow :=
  (actionTab.zip canRecoverTab).map fun r => ⟨r.2, (List.range 36).map fun t => rowAction r.1 t⟩

/-- An entry of the goto table as an integer: -1 if there is none. -/
def gotoEntry : Option Nat → Int
  | none => -1
  | some n => n

/-- The goto table as an array of integers: -1 where there is no entry. -/
def denseGotos : List (List Int) := gotoTab.map fun r => r.map gotoEntry

set_option maxRecDepth 10000000 in
/-- Initialisation of the action table succeeds with the table of the model. -/
theorem C35_action_table : initActionTab actionData = some denseActions := by decide +kernel

set_option maxRecDepth 10000000 in
/-- Initialisation of the goto table succeeds with the table of the model. -/
theorem C35_goto_table : initGotoTab gotoData = some denseGotos := by decide +kernel

/-- **C35** (tables). Initialising the package does not panic, and afterwards every lookup that the parser can make has the result that the model's has: the action of
a state `s` for a token type `t`, whether `s` is a recovery state, and the entry of the goto table for `s` and a nonterminal `n`. -/
theorem C35_tables : ∃ A G, initActionTab actionData = some A ∧ initGotoTab gotoData = some G ∧
    A.length = 128 ∧ G.length = 128 ∧
    (∀ s < 128, ∀ t < 36, (A[s]?.bind fun r => r.actions[t]?) = some ((actionTab[s]?).bind fun r => rowAction r t)) ∧
    (∀ s < 128, (A[s]?.map fun r => r.canRecover) = canRecoverTab[s]?) ∧
    (∀ s < 128, ∀ n < 17, (G[s]?.bind fun r => r[n]?) = ((gotoTab[s]?).bind fun r => r[n]?).map gotoEntry) := by
  refine ⟨_, _, C35_action_table, C35_goto_table, ?_, ?_, ?_, ?_, ?_⟩ <;> decide +kernel

/-- Damaging a byte of the data is noticed: the check sum of the model's `gunzip` is not vacuous. -/
theorem C35_tables_damaged : initGotoTab (gotoData.set 40 0) = none := by
  set_option maxRecDepth 10000000 in decide +kernel

end Gographviz.Props
