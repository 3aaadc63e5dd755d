import Verif.Model.F64

namespace Verif.F64

theorem lt_iff {f g : F64} :
    f.lt g = true ↔ f.isNaN = false ∧ g.isNaN = false ∧ f.key < g.key := by
  simp [lt, and_assoc]
theorem le_iff {f g : F64} :
    f.le g = true ↔ f.isNaN = false ∧ g.isNaN = false ∧ f.key ≤ g.key := by
  simp [le, and_assoc]
theorem eq_iff {f g : F64} :
    f.eq g = true ↔ f.isNaN = false ∧ g.isNaN = false ∧ f.key = g.key := by
  simp [eq, and_assoc]

theorem lt_false_iff {f g : F64} (hf : f.isNaN = false) (hg : g.isNaN = false) :
    f.lt g = false ↔ g.key ≤ f.key := by
  rw [← Bool.not_eq_true, lt_iff]; simp [hf, hg]
theorem le_false_iff {f g : F64} (hf : f.isNaN = false) (hg : g.isNaN = false) :
    f.le g = false ↔ g.key < f.key := by
  rw [← Bool.not_eq_true, le_iff]; simp [hf, hg]

theorem mag_le {f : F64} (h : f.isNaN = false) : f.mag ≤ infMag := by
  simpa [isNaN] using h

theorem key_bounds {f : F64} (h : f.isNaN = false) :
    -(infMag : Int) ≤ f.key ∧ f.key ≤ (infMag : Int) := by
  have := mag_le h
  unfold key; split <;> omega

theorem isNegInf_iff {f : F64} (h : f.isNaN = false) :
    f.isNegInf = true ↔ f.key = -(infMag : Int) := by
  have := mag_le h
  have h0 : infMag = 0x7FF0000000000000 := rfl
  unfold isNegInf isInf key
  cases f.sign <;> simp <;> omega

theorem isPosInf_iff {f : F64} (h : f.isNaN = false) :
    f.isPosInf = true ↔ f.key = (infMag : Int) := by
  have := mag_le h
  have h0 : infMag = 0x7FF0000000000000 := rfl
  unfold isPosInf isInf key
  cases f.sign <;> simp <;> omega

theorem key_negInf : key negInf = -(infMag : Int) := by decide
theorem key_posInf : key posInf = (infMag : Int) := by decide
theorem nan_negInf : negInf.isNaN = false := by decide
theorem nan_posInf : posInf.isNaN = false := by decide
theorem key_zero : key zero = 0 := by decide
theorem nan_zero : zero.isNaN = false := by decide

theorem min_spec {x y : F64} (hx : x.isNaN = false) (hy : y.isNaN = false) :
    (min x y).isNaN = false ∧ (min x y).key = if x.key ≤ y.key then x.key else y.key := by
  have bx := key_bounds hx
  have by' := key_bounds hy
  unfold min
  split
  · rename_i h
    refine ⟨nan_negInf, ?_⟩
    rw [Bool.or_eq_true, isNegInf_iff hx, isNegInf_iff hy] at h
    rw [key_negInf]
    split <;> omega
  · split
    · rename_i h; simp [hx, hy] at h
    · split
      · rename_i h
        rw [Bool.and_eq_true, eq_iff, eq_iff, key_zero] at h
        split <;> constructor <;> first | assumption | (split <;> omega)
      · split
        · rename_i h
          rw [lt_iff] at h
          exact ⟨hx, by split <;> omega⟩
        · rename_i h
          rw [Bool.not_eq_true, lt_false_iff hx hy] at h
          exact ⟨hy, by split <;> omega⟩

theorem max_spec {x y : F64} (hx : x.isNaN = false) (hy : y.isNaN = false) :
    (max x y).isNaN = false ∧ (max x y).key = if x.key ≤ y.key then y.key else x.key := by
  have bx := key_bounds hx
  have by' := key_bounds hy
  unfold max
  split
  · rename_i h
    refine ⟨nan_posInf, ?_⟩
    rw [Bool.or_eq_true, isPosInf_iff hx, isPosInf_iff hy] at h
    rw [key_posInf]
    split <;> omega
  · split
    · rename_i h; simp [hx, hy] at h
    · split
      · rename_i h
        rw [Bool.and_eq_true, eq_iff, eq_iff, key_zero] at h
        split <;> constructor <;> first | assumption | (split <;> omega)
      · split
        · rename_i h
          rw [lt_iff] at h
          exact ⟨hx, by split <;> omega⟩
        · rename_i h
          rw [Bool.not_eq_true, lt_false_iff hy hx] at h
          exact ⟨hy, by split <;> omega⟩

theorem selHi {a b : F64} (ha : a.isNaN = false) (hb : b.isNaN = false) :
    (if a.lt b = true then b else a).isNaN = false ∧
    (if a.lt b = true then b else a).key = Max.max a.key b.key := by
  cases h : a.lt b with
  | true => have := lt_iff.1 h; exact ⟨hb, by simp; omega⟩
  | false => have := (lt_false_iff ha hb).1 h; exact ⟨ha, by simp; omega⟩

theorem selLo {a b : F64} (ha : a.isNaN = false) (hb : b.isNaN = false) :
    (if b.lt a = true then b else a).isNaN = false ∧
    (if b.lt a = true then b else a).key = Min.min a.key b.key := by
  cases h : b.lt a with
  | true => have := lt_iff.1 h; exact ⟨hb, by simp; omega⟩
  | false => have := (lt_false_iff hb ha).1 h; exact ⟨ha, by simp; omega⟩

end Verif.F64
