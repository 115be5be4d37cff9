import Verif.ParserHigh
import Verif.Driver
/-!
# Restricting what a template may use

Models `_filterDisabledDirectives` (Parser.py 1525-1533): the settings `disabledDirectives` and `enabledDirectives`
(Compiler.py 96-99).
-/
namespace Cheetah.Parser

/-- Parser.py 1525-1533 `_filterDisabledDirectives`: is a directive forbidden? The name is put in lower case (1526), the
entries of the two lists are not. The hooks of 1530-1531 are not modelled: an exception follows in any case. -/
def forbidden (disabled enabled : List Str) (name : Str) : Bool :=
  disabled.contains (Driver.CC.lower name) || (!enabled.isEmpty && !enabled.contains (Driver.CC.lower name))

/-- A parser with the two settings (Parser.py 1527-1529). -/
def Env.restrict (h : Env) (disabled enabled : List Str) : Env := { h with disabled := forbidden disabled enabled }

end Cheetah.Parser
