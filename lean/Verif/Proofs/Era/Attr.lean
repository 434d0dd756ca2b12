import Mathlib.Tactic.Attr.Register

/-- Values without positions, computed. -/
register_simp_attr ner
