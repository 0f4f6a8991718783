import Verif.Props.Aggregator

/-!
C68: the statistics of no test points at all.
-/

namespace Verif

/-- **C68 (no points).** Without test points there is a row: it counts zero points, and every mean and every
variance in it is nan (not zero, which would read as a perfect prediction).  The quantiles, whose value
depends on the version of numpy, are left out. -/
theorem C68_no_points : ∃ row, aggregate [] [] = .ok row ∧ ("npoints", Cell.int 0) ∈ row ∧
    ∀ c ∈ ["mean_error", "mean_abs_error", "mean_squared_error", "mean_abs_relative_error",
      "mare_freq_at_least_2", "mare_freq_at_least_3", "mare_freq_at_least_4", "mare_freq_at_least_5",
      "mare_freq_at_least_6", "mare_freq_at_least_7", "mare_freq_at_least_8", "mare_freq_at_least_9",
      "mean_squared_relative_error", "var_error", "var_relative_error", "mean_shuffle_distance",
      "mean_squared_shuffle_distance", "var_shuffle_distance"],
      (∃ v, (c, v) ∈ row) ∧ ∀ v, (c, v) ∈ row → v = Cell.float none := by
  refine ⟨_, rfl, ?_, ?_⟩
  · simp
  · intro c hc
    simp only [List.mem_cons, List.not_mem_nil, or_false] at hc
    rcases hc with rfl | rfl | rfl | rfl | rfl | rfl | rfl | rfl | rfl | rfl | rfl | rfl | rfl | rfl |
      rfl | rfl | rfl | rfl <;> refine ⟨⟨Cell.float none, ?_⟩, ?_⟩ <;> simp <;>
      rfl

end Verif
