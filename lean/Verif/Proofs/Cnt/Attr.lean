import Mathlib.Tactic.Attr.Register

/-- The numbers in a value, computed. -/
register_simp_attr cwt
