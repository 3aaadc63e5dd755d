import Verif.Model.Gpkg
import Verif.Lemmas.Wkb
import Verif.Lemmas.Extent

namespace Verif.Gpkg
open Verif Verif.Wkb Verif.Spec.Extent

theorem et_cases {et : Byte} {n : Nat} (h : numElements et = n) :
    (et = 0#8 ∧ n = 0) ∨ (et = 1#8 ∧ n = 4) ∨ (et = 2#8 ∧ n = 6) ∨ (et = 3#8 ∧ n = 6) ∨
    (et = 4#8 ∧ n = 8) := by
  unfold numElements at h
  repeat (split at h; · rename_i he; subst he; simp; omega)
  omega

theorem readEnvelope_append (o : Order) (env : List F64) (rest : List Byte) :
    readEnvelope o env.length (env.flatMap (putF o) ++ rest) = env := by
  induction env with
  | nil => rfl
  | cons f env ih =>
    have hl : (putF o f).length = 8 := putF_length o f
    rw [List.length_cons, readEnvelope, List.flatMap_cons, List.append_assoc,
      List.take_append_of_le_length (by omega), List.take_of_length_le (by omega),
      ofNat_getN_putF, List.drop_append_of_le_length (by omega), List.drop_of_length_le (by omega)]
    simp [ih]

theorem flatMap_putF_length (o : Order) (env : List F64) :
    (env.flatMap (putF o)).length = env.length * 8 := by
  induction env with
  | nil => rfl
  | cons f env ih => simp [ih, putF_length]; omega

theorem readEnvelope_length (o : Order) (n : Nat) (bs : List Byte) :
    (readEnvelope o n bs).length = n := by
  induction n generalizing bs with
  | zero => rfl
  | succ n ih => simp [readEnvelope, ih]

theorem readEnvelope_encode (o : Order) (n : Nat) (bs : List Byte) (h : n * 8 ≤ bs.length) :
    (readEnvelope o n bs).flatMap (putF o) = bs.take (n * 8) := by
  induction n generalizing bs with
  | zero => simp [readEnvelope]
  | succ n ih =>
    rw [readEnvelope, List.flatMap_cons, ih (bs.drop 8) (by simp; omega),
      putF_ofNat_getN o (bs.take 8) (by simp; omega)]
    rw [show (n + 1) * 8 = 8 + n * 8 by omega, List.take_add]

theorem flags_endian (o : Order) (et : Byte) (x m : Bool) (n : Nat) (h : numElements et = n) :
    flagEndian (encodeFlags o et x m) = o := by
  rcases et_cases h with ⟨rfl, _⟩ | ⟨rfl, _⟩ | ⟨rfl, _⟩ | ⟨rfl, _⟩ | ⟨rfl, _⟩ <;>
    cases o <;> cases x <;> cases m <;> decide

theorem flags_envelope (o : Order) (et : Byte) (x m : Bool) (n : Nat) (h : numElements et = n) :
    flagEnvelope (encodeFlags o et x m) = et := by
  rcases et_cases h with ⟨rfl, _⟩ | ⟨rfl, _⟩ | ⟨rfl, _⟩ | ⟨rfl, _⟩ | ⟨rfl, _⟩ <;>
    cases o <;> cases x <;> cases m <;> decide

/-- A well-formed header in memory. -/
def Header.ok (h : Header) : Prop :=
  h.magic0 = 0x47#8 ∧ h.magic1 = 0x50#8 ∧ numElements (flagEnvelope h.flags) = h.envelope.length

theorem putN4 (o : Order) (n : Nat) : ∃ a b c d, putN o 4 n = [a, b, c, d] := by
  have := putN_length o 4 n
  match h : putN o 4 n, this with
  | [a, b, c, d], _ => exact ⟨a, b, c, d, rfl⟩

theorem decode_encode (h : Header) (hk : h.ok) (rest : List Byte) :
    decodeHeader (h.encode ++ rest) = .ok h := by
  obtain ⟨h0, h1, h2⟩ := hk
  obtain ⟨a, b, c, d, hp⟩ := putN4 (flagEndian h.flags) h.srsid.toNat
  have hs : BitVec.ofNat 32 (getN (flagEndian h.flags) [a, b, c, d]) = h.srsid := by
    rw [← hp, getN_putN]
    apply BitVec.eq_of_toNat_eq
    rw [BitVec.toNat_ofNat]
    have := h.srsid.isLt
    omega
  have hc := et_cases h2
  rw [Header.encode, hp]
  simp only [List.cons_append, List.nil_append, decodeHeader, hs]
  have hlen : ¬ (h.envelope.flatMap (putF (flagEndian h.flags)) ++ rest).length <
      (numElements (flagEnvelope h.flags)).toNat * 8 := by
    rw [h2, List.length_append, flatMap_putF_length]; simp
  have hne : flagEnvelope h.flags ≠ 5#8 := by
    rcases hc with ⟨h, _⟩ | ⟨h, _⟩ | ⟨h, _⟩ | ⟨h, _⟩ | ⟨h, _⟩ <;> rw [h] <;> decide
  rw [if_neg hne]
  by_cases hz : flagEnvelope h.flags = 0#8
  · rw [if_pos hz]
    have he : h.envelope = [] := by
      rw [hz] at h2
      have : h.envelope.length = 0 := by
        have : numElements 0#8 = 0 := by decide
        omega
      exact List.length_eq_zero_iff.1 this
    cases h; simp_all
  · rw [if_neg hz, if_neg hlen, h2, Int.toNat_natCast, readEnvelope_append]
    cases h; simp_all

theorem new_ok {o srs env et x m h} (hn : newHeader o srs env et x m = some h) :
    h.ok ∧ h.envelope = env ∧ h.srsid = srs ∧ h.flags = encodeFlags o et x m ∧
    numElements et = env.length := by
  unfold newHeader at hn
  split at hn
  · cases hn
  · rename_i hne
    rw [Option.some.injEq] at hn
    subst hn
    simp only [ne_eq, Decidable.not_not] at hne
    refine ⟨⟨rfl, rfl, ?_⟩, rfl, rfl, rfl, hne⟩
    simp only [flags_envelope o et x m _ hne, hne]

/-! ## Emptiness -/

theorem isEmptyPoint_iff (p : Pt F64) : Cmp.isEmptyPoint p = true ↔ ¬ numPt p := by
  simp [Cmp.isEmptyPoint, F64.eq, numPt, num]
  cases p.1.isNaN <;> cases p.2.isNaN <;> simp

theorem isEmptyPoints_iff (ps : List (Pt F64)) :
    Cmp.isEmptyPoints ps = true ↔ ∀ p ∈ ps, ¬ numPt p := by
  induction ps with
  | nil => simp [Cmp.isEmptyPoints]
  | cons p ps ih =>
    rw [Cmp.isEmptyPoints]
    have := isEmptyPoint_iff p
    cases h : Cmp.isEmptyPoint p <;> simp [h] at this ⊢ <;> simp [this, ih]

theorem isEmptyLines_iff (ps : List (List (Pt F64))) :
    Cmp.isEmptyLines ps = true ↔ ∀ p ∈ ps.flatten, ¬ numPt p := by
  induction ps with
  | nil => simp [Cmp.isEmptyLines]
  | cons p ps ih =>
    rw [Cmp.isEmptyLines]
    have := isEmptyPoints_iff p
    simp only [List.flatten_cons, List.mem_append]
    cases h : Cmp.isEmptyPoints p
    · simp only [h, Bool.false_eq_true, false_iff] at this
      simp only [Bool.not_false, if_true, Bool.false_eq_true, false_iff]
      intro hc; exact this (fun q hq => hc q (.inl hq))
    · simp only [h, true_iff] at this
      simp only [Bool.not_true, Bool.false_eq_true, if_false, ih]
      exact ⟨fun hh q hq => hq.elim (this q) (hh q), fun hh q hq => hh q (.inr hq)⟩

theorem isEmptyPolys_iff (ps : List (List (List (Pt F64)))) :
    Cmp.isEmptyPolys ps = true ↔ ∀ p ∈ ps.flatten.flatten, ¬ numPt p := by
  induction ps with
  | nil => simp [Cmp.isEmptyPolys]
  | cons p ps ih =>
    rw [Cmp.isEmptyPolys]
    have := isEmptyLines_iff p
    simp only [List.flatten_cons, List.flatten_append, List.mem_append]
    cases h : Cmp.isEmptyLines p
    · simp only [h, Bool.false_eq_true, false_iff] at this
      simp only [Bool.not_false, if_true, Bool.false_eq_true, false_iff]
      intro hc; exact this (fun q hq => hc q (.inl hq))
    · simp only [h, true_iff] at this
      simp only [Bool.not_true, Bool.false_eq_true, if_false, ih]
      exact ⟨fun hh q hq => hq.elim (this q) (hh q), fun hh q hq => hh q (.inr hq)⟩

theorem isEmptyGeo_iff (g : Geom F64) : known g = true →
    (Cmp.isEmptyGeo g = true ↔ ∀ p ∈ verticesOf g, ¬ numPt p) := by
  induction g using Geom.induct with
  | point p => intro _; simp [Cmp.isEmptyGeo, isEmptyPoint_iff, verticesOf]
  | multiPoint ps => intro _; exact isEmptyPoints_iff ps
  | lineString ps => intro _; exact isEmptyPoints_iff ps
  | multiLineString ps => intro _; exact isEmptyLines_iff ps
  | polygon ps => intro _; exact isEmptyLines_iff ps
  | multiPolygon ps => intro _; exact isEmptyPolys_iff ps
  | other => intro h; simp [known] at h
  | collection gs ih =>
    have key : ∀ gs : List (Geom F64), (∀ g ∈ gs, known g = true →
        (Cmp.isEmptyGeo g = true ↔ ∀ p ∈ verticesOf g, ¬ numPt p)) → knownAll gs = true →
        (Cmp.isEmptyGeos gs = true ↔ ∀ p ∈ verticesOfAll gs, ¬ numPt p) := by
      intro gs
      induction gs with
      | nil => intro _ _; simp [Cmp.isEmptyGeos, verticesOfAll]
      | cons g gs ihg =>
        intro h hk
        rw [knownAll, Bool.and_eq_true] at hk
        have h1 := h g (by simp) hk.1
        have h2 := ihg (fun g' h' => h g' (by simp [h'])) hk.2
        rw [Cmp.isEmptyGeos, verticesOfAll]
        simp only [List.mem_append]
        cases he : Cmp.isEmptyGeo g
        · simp only [he, Bool.false_eq_true, false_iff] at h1
          simp only [Bool.not_false, if_true, Bool.false_eq_true, false_iff]
          intro hc; exact h1 (fun q hq => hc q (.inl hq))
        · simp only [he, true_iff] at h1
          simp only [Bool.not_true, Bool.false_eq_true, if_false, h2]
          exact ⟨fun hh q hq => hq.elim (h1 q) (hh q), fun hh q hq => hh q (.inr hq)⟩
    intro hk
    exact key gs ih hk

end Verif.Gpkg
