import Verif.Model.GpkgScan
import Verif.Spec.GpkgScan
import Verif.Lemmas.Gpkg

namespace Verif.Gpkg
open Verif Verif.Wkb

/-- What every header that was decoded satisfies. -/
def Header.read (h : Header) : Prop :=
  (flagEnvelope h.flags = 0#8 ∨ (h.magic0 = 0x47#8 ∧ h.magic1 = 0x50#8)) ∧
    numElements (flagEnvelope h.flags) = h.envelope.length

theorem ok_read {h : Header} (hk : h.ok) : h.read := ⟨.inr ⟨hk.1, hk.2.1⟩, hk.2.2⟩

theorem decoded_read {bs : List Byte} {h : Header} (hd : decodeHeader bs = .ok h) : h.read := by
  have key : ∀ f : Byte, flagEnvelope f ≠ 5#8 → 0 ≤ numElements (flagEnvelope f) := by decide +kernel
  unfold decodeHeader at hd
  split at hd
  · rename_i m0 m1 v f s0 s1 s2 s3 bytes
    simp only at hd
    split at hd
    · cases hd
    · rename_i h5
      split at hd
      · rename_i h0
        cases hd
        refine ⟨.inl h0, ?_⟩
        simp only [h0]
        rfl
      · split at hd
        · cases hd
        · split at hd
          · cases hd
          · rename_i hm
            cases hd
            simp only [ne_eq, Bool.or_eq_true, decide_eq_true_eq, not_or, Decidable.not_not] at hm
            refine ⟨.inr hm, ?_⟩
            have := key f h5
            simp only [readEnvelope_length]
            omega
  · cases hd

/-- A header that was read is written and read as it is. -/
theorem decode_again (h : Header) (hk : h.read) (rest : List Byte) :
    decodeHeader (h.encode ++ rest) = .ok h := by
  obtain ⟨hm, h2⟩ := hk
  obtain ⟨a, b, c, d, hp⟩ := putN4 (flagEndian h.flags) h.srsid.toNat
  have hs : BitVec.ofNat 32 (getN (flagEndian h.flags) [a, b, c, d]) = h.srsid := by
    rw [← hp, getN_putN]
    apply BitVec.eq_of_toNat_eq
    rw [BitVec.toNat_ofNat]
    have := h.srsid.isLt
    omega
  have hc := et_cases h2
  rw [Header.encode, hp]
  simp only [List.cons_append, List.nil_append, decodeHeader, hs]
  have hlen : ¬ (h.envelope.flatMap (putF (flagEndian h.flags)) ++ rest).length <
      (numElements (flagEnvelope h.flags)).toNat * 8 := by
    rw [h2, List.length_append, flatMap_putF_length]; simp
  have hne : flagEnvelope h.flags ≠ 5#8 := by
    rcases hc with ⟨h, _⟩ | ⟨h, _⟩ | ⟨h, _⟩ | ⟨h, _⟩ | ⟨h, _⟩ <;> rw [h] <;> decide
  rw [if_neg hne]
  by_cases hz : flagEnvelope h.flags = 0#8
  · rw [if_pos hz]
    have he : h.envelope = [] := by
      rw [hz] at h2
      have : h.envelope.length = 0 := by
        have : numElements 0#8 = 0 := by decide
        omega
      exact List.length_eq_zero_iff.1 this
    cases h; simp_all
  · rw [if_neg hz, if_neg hlen, h2, Int.toNat_natCast, readEnvelope_append]
    obtain ⟨m0, m1⟩ := hm.resolve_left hz
    cases h; simp_all

theorem encode_size (h : Header) : h.encode.length = h.size := by
  simp only [Header.encode, Header.size, List.length_append, flatMap_putF_length, putN_length]
  simp
  omega

/-- Written and read again, with a header that can be read. -/
theorem blob_again (h : Header) (hk : h.read) (s : BitVec 32) (g g' : Geom F64) (w : List Byte)
    (hw : Wkb.encode (flagEndian h.flags) g = some w) (hd : Wkb.decodeBytes w = .ok g') (r : Std) :
    value (some ⟨some h, s, g⟩) = .ok (h.encode ++ w) ∧
    scan (some r) (.bytes (h.encode ++ w)) = (none, some ⟨some h, h.srsid, g'⟩) := by
  refine ⟨by simp only [value, Std.encode, encodeHeaderTo, hw], ?_⟩
  simp only [scan, decodeGeometry, decode_again h hk w, ← encode_size h, List.drop_left, hd]

end Verif.Gpkg
