import Lean.Meta.Tactic.Simp.RegisterCommand

/-- Equations that run the functions of the parser. -/
register_simp_attr gram
/-- Equations of `toks`. -/
register_simp_attr gtoks
/-- Equations of `sx`. -/
register_simp_attr gsx
/-- Equations of `after`. -/
register_simp_attr gafter
/-- Equations of `lhs`. -/
register_simp_attr glhs
/-- Equations of `hasDo`. -/
register_simp_attr gdo
/-- Equations of `WF`. -/
register_simp_attr gwf
