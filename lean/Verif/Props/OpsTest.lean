import Verif.Model.OpsTest

/-!
# C43: the bundled test of the word operations

The program has no input, so this is one evaluation per build; its point is that the modelled word
operations agree with what the authors wrote down about them.
-/

namespace Dvbcsa.Props

open Model

/-- C43. test/testbsops.c prints "Ok" and nothing else in every supported build. -/
theorem C43_testbsops (bd : Build) (h : bd.Supported) : OpsTest.main bd = true := by
  obtain ⟨isa, e, a, b, c, d⟩ := bd
  have : ∀ e isa a b c d, Build.Supported ⟨isa, e, a, b, c, d⟩ →
      OpsTest.main ⟨isa, e, a, b, c, d⟩ = true := by
    intro e isa
    cases e <;> cases isa <;> unfold Build.Supported <;> decide +kernel
  exact this e isa a b c d h

end Dvbcsa.Props
