import Verif.Lemmas.Extent

namespace Verif.Ext
open Verif Verif.Spec.Extent

theorem finite_bounds {x : F64} (h : num x) (hi : x.isInf = false) :
    F64.negMaxFloat.le x = true ∧ x.le F64.maxFloat = true := by
  simp only [num] at h
  have hm : x.mag < F64.infMag := by
    have h1 := F64.mag_le h
    have h2 : x.mag ≠ F64.infMag := by simpa [F64.isInf] using hi
    omega
  have k1 : F64.negMaxFloat.key = -((F64.infMag : Int) - 1) := by decide
  have k2 : F64.maxFloat.key = (F64.infMag : Int) - 1 := by decide
  have n1 : F64.negMaxFloat.isNaN = false := by decide
  have n2 : F64.maxFloat.isNaN = false := by decide
  simp only [F64.le_iff, h, n1, n2, k1, k2, true_and]
  unfold F64.key
  split <;> omega

end Verif.Ext
