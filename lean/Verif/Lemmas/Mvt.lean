import Verif.Model.Mvt
import Verif.Spec.Mvt
import Verif.Lemmas.Winding
namespace Verif.Mvt
open Verif Verif.Winding Verif.Spec.Winding Verif.Spec.Mvt

theorem neg_lsb (w : BitVec 32) : -(w &&& 1#32) = if w.getLsbD 0 then BitVec.allOnes 32 else 0#32 := by
  have h : w &&& 1#32 = if w.getLsbD 0 then 1#32 else 0#32 := by
    ext i hi
    by_cases h0 : i = 0
    · subst h0
      cases h : w[0] <;> simp [BitVec.getLsbD_eq_getElem, h]
    · cases h : w.getLsbD 0 <;> simp [BitVec.getElem_one, h0]
  rw [h]; split <;> decide

theorem neg_lsb_bit (w : BitVec 32) (i : Nat) (hi : i < 32) :
    (-(w &&& 1#32)).getLsbD i = w.getLsbD 0 := by
  rw [neg_lsb]
  split
  · rename_i h; rw [BitVec.getLsbD_allOnes, h]; simp [hi]
  · rename_i h; simp only [Bool.not_eq_true] at h; rw [h]; simp

theorem encode_bit (d : BitVec 32) (i : Nat) (hi : i < 32) :
    (encodeZigZag (d.signExtend 64)).getLsbD i = ((decide (0 < i) && d.getLsbD (i - 1)) ^^ d.msb) := by
  unfold encodeZigZag
  rw [BitVec.truncate_eq_setWidth, BitVec.getLsbD_setWidth, BitVec.getLsbD_xor, BitVec.getLsbD_shiftLeft, BitVec.getLsbD_sshiftRight,
    BitVec.getLsbD_signExtend, BitVec.getLsbD_signExtend]
  have h1 : 31 + i < 64 := by omega
  have h2 : i < 64 := by omega
  have h3 : i - 1 < 64 := by omega
  have h4 : i - 1 < 32 := by omega
  have h5 : ¬ (64 ≤ i) := by omega
  have h6 : d.msb = d.getLsbD 31 := rfl
  by_cases h : i = 0
  · subst h; simp [h6]
  · have : 0 < i := by omega
    have h7 : ¬ (31 + i < 32) := by omega
    simp [hi, h1, h2, h3, h4, h5, this, h, h7]

theorem zigzag (d : BitVec 32) : decodeZigZag (encodeZigZag (d.signExtend 64)) = d := by
  unfold decodeZigZag
  apply BitVec.eq_of_getLsbD_eq
  intro i hi
  rw [BitVec.getLsbD_xor, BitVec.getLsbD_ushiftRight, neg_lsb_bit _ i hi]
  by_cases h : i = 31
  · subst h
    have : (encodeZigZag (d.signExtend 64)).getLsbD (1 + 31) = false := BitVec.getLsbD_of_ge _ _ (by omega)
    rw [this, encode_bit d 0 (by omega)]
    have h6 : d.msb = d.getLsbD 31 := rfl
    simp [h6]
  · rw [encode_bit d (1 + i) (by omega), encode_bit d 0 (by omega)]
    have h7 : 1 + i - 1 = i := by omega
    have h8 : 0 < 1 + i := by omega
    simp [h7, h8]

theorem unzigzag (w : Word) : encodeZigZag ((decodeZigZag w).signExtend 64) = w := by
  apply BitVec.eq_of_getLsbD_eq
  intro i hi
  rw [encode_bit _ i hi]
  have hm : (decodeZigZag w).msb = w.getLsbD 0 := by
    change (decodeZigZag w).getLsbD 31 = _
    unfold decodeZigZag
    rw [BitVec.getLsbD_xor, neg_lsb_bit _ 31 (by omega), BitVec.getLsbD_ushiftRight, BitVec.getLsbD_of_ge _ (1 + 31) (by omega)]
    simp
  rw [hm]
  by_cases h : i = 0
  · subst h; simp
  · have h0 : 0 < i := by omega
    have h1 : 1 + (i - 1) = i := by omega
    have h2 : i - 1 < 32 := by omega
    unfold decodeZigZag
    rw [BitVec.getLsbD_xor, neg_lsb_bit _ (i - 1) h2, BitVec.getLsbD_ushiftRight, h1]
    cases w.getLsbD 0 <;> simp [h0]

theorem zigzag_int (x : Int) (h1 : -2 ^ 31 ≤ x) (h2 : x < 2 ^ 31) :
    (decodeZigZag (encodeZigZag (BitVec.ofInt 64 x))).toInt = x := by
  have hx : (BitVec.ofInt 32 x).toInt = x := by
    rw [BitVec.toInt_ofInt, Int.bmod_def]; omega
  have : BitVec.ofInt 64 x = (BitVec.ofInt 32 x).signExtend 64 := by
    rw [BitVec.signExtend, hx]
  rw [this, zigzag, hx]

theorem cmdId_new (cmd : Word) (n : Int) : cmdId (newCommand cmd n) = cmd &&& 7#32 := by
  unfold cmdId newCommand
  apply BitVec.eq_of_getLsbD_eq
  intro i hi
  have : ∀ j < 32, (7#32).getLsbD j = decide (j < 3) := by decide
  simp only [BitVec.getLsbD_and, BitVec.getLsbD_or, BitVec.getLsbD_shiftLeft, this i hi]
  by_cases h : i < 3 <;> simp [h]

theorem cmdCount_new (cmd : Word) (n : Nat) : cmdCount (newCommand cmd n) = n % 2 ^ 29 := by
  unfold cmdCount newCommand
  have : (((cmd &&& 7#32) ||| (BitVec.ofInt 32 (n : Int) <<< 3)) >>> 3) = BitVec.ofNat 32 (n % 2 ^ 29) := by
    apply BitVec.eq_of_getLsbD_eq
    intro i hi
    have h7 : ∀ j < 35, 3 ≤ j → (7#32).getLsbD j = false := by decide
    rw [BitVec.getLsbD_ushiftRight, BitVec.getLsbD_or, BitVec.getLsbD_and, h7 (3 + i) (by omega) (by omega),
      BitVec.getLsbD_shiftLeft, BitVec.ofInt_natCast, BitVec.getLsbD_ofNat]
    rw [BitVec.getLsbD_ofNat, Nat.testBit_mod_two_pow]
    have : 3 + i - 3 = i := by omega
    rw [this]
    by_cases h : i < 29
    · have : 3 + i < 32 := by omega
      simp [h, this, hi]
    · have : ¬ (3 + i < 32) := by omega
      simp [h, this]
  rw [this, BitVec.toNat_ofNat]
  omega

/-! ## Cursor -/

theorem deltas_length (c : Pt Int) (ps : List (Pt Int)) : (deltas c ps).1.length = ps.length * 2 := by
  induction ps generalizing c with
  | nil => rfl
  | cons p ps ih => simp [deltas, ih]; omega

theorem deltas_last (c : Pt Int) (ps : List (Pt Int)) : (deltas c ps).2 = lastOf c ps := by
  induction ps generalizing c with
  | nil => rfl
  | cons p ps ih => exact ih p

/-- Successive points are a 32-bit step apart. -/
def Near : Pt Int → List (Pt Int) → Prop
  | _, [] => True
  | c, p :: ps => step c p ∧ Near p ps

theorem near_of (c : Pt Int) (ps : List (Pt Int)) (h : ∀ p ∈ c :: ps, ∀ q ∈ c :: ps, step p q) :
    Near c ps := by
  induction ps generalizing c with
  | nil => trivial
  | cons p ps ih =>
    exact ⟨h c (by simp) p (by simp), ih p (fun a ha b hb => h a (by simp at ha ⊢; tauto) b (by simp at hb ⊢; tauto))⟩

/-- Coordinates of at most 30 bits are in range. -/
theorem inRange_of_bound (g : Geom Int) (h : ∀ p ∈ Spec.Extent.verticesOf g,
    -1073741824 ≤ p.1 ∧ p.1 < 1073741824 ∧ -1073741824 ≤ p.2 ∧ p.2 < 1073741824) : InRange g := by
  have h' : ∀ p ∈ (0, 0) :: Spec.Extent.verticesOf g,
      -1073741824 ≤ p.1 ∧ p.1 < 1073741824 ∧ -1073741824 ≤ p.2 ∧ p.2 < 1073741824 := by
    intro p hp
    rcases List.mem_cons.1 hp with rfl | hp
    · decide
    · exact h p hp
  intro p hp q hq
  have h1 := h' p hp
  have h2 := h' q hq
  unfold step; omega

theorem decodePt_step (c p : Pt Int) (h : step c p) :
    decodePt c (encodeZigZag (BitVec.ofInt 64 (p.1 - c.1))) (encodeZigZag (BitVec.ofInt 64 (p.2 - c.2))) = p := by
  obtain ⟨h1, h2, h3, h4⟩ := h
  rw [decodePt, zigzag_int _ h1 h2, zigzag_int _ h3 h4]
  ext <;> simp

theorem decodeN_deltas (c : Pt Int) (ps : List (Pt Int)) (rest : List Word) (h : Near c ps) :
    decodeN ps.length c ((deltas c ps).1 ++ rest) = (ps, lastOf c ps, rest) := by
  induction ps generalizing c with
  | nil => simp [deltas, decodeN, lastOf]
  | cons p ps ih =>
    obtain ⟨h1, h2⟩ := h
    simp only [deltas, List.length_cons, List.cons_append, decodeN]
    rw [decodePt_step c p h1, ih p h2]
    simp [lastOf]

theorem id_move (n : Int) : cmdId (newCommand cmdMoveTo n) = cmdMoveTo := by
  rw [cmdId_new]; decide
theorem id_line (n : Int) : cmdId (newCommand cmdLineTo n) = cmdLineTo := by
  rw [cmdId_new]; decide
theorem id_close (n : Int) : cmdId (newCommand cmdClosePath n) = cmdClosePath := by
  rw [cmdId_new]; decide
theorem count_new (cmd : Word) (n : Nat) (h : n < 2 ^ 29) : cmdCount (newCommand cmd n) = n := by
  rw [cmdCount_new, Nat.mod_eq_of_lt h]
theorem count_one (cmd : Word) : cmdCount (newCommand cmd 1) = 1 := count_new cmd 1 (by decide)
theorem new_ne_zero (cmd : Word) (n : Int) (h : cmd &&& 7#32 ≠ 0) : newCommand cmd n ≠ 0 := by
  intro hc
  have := cmdId_new cmd n
  rw [hc] at this
  exact h (by rw [← this]; decide)

theorem decode_line (fuel : Nat) (last : Word) (c : Pt Int) (ret : List (List (Pt Int))) (p : Pt Int)
    (ps : List (Pt Int)) (rest : List Word) (hl : last = 0 ∨ cmdId last = cmdLineTo)
    (hn : Near c (p :: ps)) (h1 : ps ≠ []) (h2 : ps.length < 2 ^ 29) :
    ∃ e, encodeLine c (p :: ps) = some e ∧ e.2 = lastOf p ps ∧ 2 ≤ e.1.length ∧
    decodeLinesLoop (fuel + 2) last c ret (e.1 ++ rest) =
      decodeLinesLoop fuel (newCommand cmdLineTo ps.length) (lastOf p ps) (ret ++ [p :: ps]) rest := by
  obtain ⟨hn1, hn2⟩ := hn
  cases ps with
  | nil => exact absurd rfl h1
  | cons q qs =>
    refine ⟨_, rfl, ?_, ?_, ?_⟩
    · simp [lineTo, encodeCmd, moveTo, deltas_last, lastOf]
    · simp [moveTo, encodeCmd, deltas_length]; omega
    · simp only [moveTo, lineTo, encodeCmd, deltas_last, lastOf]
      have hd : (deltas c [p]).1 = [encodeZigZag (BitVec.ofInt 64 (p.1 - c.1)),
        encodeZigZag (BitVec.ofInt 64 (p.2 - c.2))] := rfl
      simp only [hd, List.cons_append, List.nil_append, List.length_singleton]
      rw [decodeLinesLoop]
      have hc1 : cmdCount (newCommand cmdMoveTo ((1 : Nat) : Int)) = 1 := count_one _
      have hi1 := id_move ((1 : Nat) : Int)
      rw [if_neg (by rw [hc1]; simp), if_pos hi1, if_neg (by tauto)]
      simp only [twoWords]
      rw [decodePt_step c p hn1, decodeLinesLoop]
      have hc2 := count_new cmdLineTo (q :: qs).length h2
      have hi2 := id_line ((q :: qs).length : Int)
      have hlen := deltas_length p (q :: qs)
      rw [if_neg (by rw [hc2, List.length_append, hlen]; omega),
        if_neg (by rw [hi2]; decide), if_pos hi2, if_neg (by rw [hi1]; simp),
        if_neg (by rw [hc2]; simp)]
      rw [hc2, decodeN_deltas p (q :: qs) rest hn2]
      simp [lastOf]

theorem decode_lines (ls : List (List (Pt Int))) : ∀ (fuel : Nat) (last : Word) (c : Pt Int)
    (ret : List (List (Pt Int))),
    (last = 0 ∨ cmdId last = cmdLineTo) →
    (∀ p ∈ c :: ls.flatten, ∀ q ∈ c :: ls.flatten, step p q) → (∀ l ∈ ls, 2 ≤ l.length ∧ l.length ≤ 2 ^ 29) →
    2 * ls.length ≤ fuel →
    ∃ e, encodeLines c ls = some e ∧ 2 * ls.length ≤ e.1.length ∧
      decodeLinesLoop fuel last c ret e.1 = .ok (ret ++ ls) := by
  induction ls with
  | nil =>
    intro fuel last c ret _ _ _ _
    refine ⟨([], c), rfl, by simp, ?_⟩
    cases fuel <;> simp [decodeLinesLoop]
  | cons l ls ih =>
    intro fuel last c ret hl hs hlen hf
    obtain ⟨hl2, hl3⟩ := hlen l (by simp)
    match l, hl2 with
    | p :: q :: qs, _ =>
      obtain ⟨fuel, rfl⟩ : ∃ k, fuel = k + 2 := ⟨fuel - 2, by simp at hf; omega⟩
      have hnear : Near c (p :: q :: qs) := near_of _ _ (fun a ha b hb => hs a (by simp at ha ⊢; tauto) b (by simp at hb ⊢; tauto))
      have hlast : lastOf p (q :: qs) ∈ p :: q :: qs := by
        have h : ∀ (x : Pt Int) xs, lastOf x xs ∈ x :: xs := by
          intro x xs
          induction xs generalizing x with
          | nil => simp [lastOf]
          | cons y ys ih => exact List.mem_cons_of_mem _ (ih y)
        exact h p (q :: qs)
      have hmem : ∀ a ∈ lastOf p (q :: qs) :: ls.flatten, a ∈ c :: ((p :: q :: qs) :: ls).flatten := by
        intro a ha
        rw [List.flatten_cons]
        rcases List.mem_cons.1 ha with rfl | h
        · exact List.mem_cons_of_mem _ (List.mem_append_left _ hlast)
        · exact List.mem_cons_of_mem _ (List.mem_append_right _ h)
      obtain ⟨t, ht1, ht2, ht3⟩ := ih fuel (newCommand cmdLineTo (q :: qs).length) (lastOf p (q :: qs))
        (ret ++ [p :: q :: qs]) (.inr (id_line _)) (fun a ha b hb => hs a (hmem a ha) b (hmem b hb))
        (fun l hl => hlen l (by simp [hl])) (by simp at hf; omega)
      obtain ⟨e, he1, he2, he3, he4⟩ := decode_line fuel last c ret p (q :: qs) t.1 hl hnear (by simp)
        (by simp at hl3 ⊢; omega)
      refine ⟨(e.1 ++ t.1, t.2), ?_, ?_, ?_⟩
      · rw [encodeLines, he1]
        simp only [he2, ht1]
      · simp; omega
      · rw [he4, ht3]; simp

/-! ## Rings -/

theorem pick_cw (r : List (Pt Int)) (h : area2 r ≠ 0) :
    (if orientation true r ≠ clockwise then r.reverse else r) = turn true r := by
  rw [turn]
  have := orientation_cw_iff true r h
  by_cases hd : decide (0 < area2 r) = true
  · simp only [hd, if_true, this.2 hd]; simp
  · have : orientation true r ≠ clockwise := fun hc => hd (this.1 hc)
    rw [if_neg hd, if_pos this]

theorem pick_ccw (r : List (Pt Int)) (h : area2 r ≠ 0) :
    (if orientation true r ≠ counterClockwise then r.reverse else r) = turn false r := by
  rw [turn]
  have h1 := orientation_cw_iff true r h
  have h2 : orientation true r ≠ 0 := fun hc => h ((orientation_zero true r).1 hc)
  have h3 := orientation_cases true r
  simp only [clockwise, counterClockwise] at *
  by_cases hd : decide (0 < area2 r) = true
  · have := h1.2 hd
    simp only [hd, this]; simp
  · have : orientation true r = 1 := by
      have : orientation true r ≠ -1 := fun hc => hd (h1.1 hc)
      omega
    simp only [hd, this]; simp

theorem turn_mem (b : Bool) (r : List (Pt Int)) (p : Pt Int) : p ∈ turn b r ↔ p ∈ r := by
  rw [turn]; split <;> simp

theorem turn_length (b : Bool) (r : List (Pt Int)) : (turn b r).length = r.length := by
  rw [turn]; split <;> simp

theorem length_of_area (r : List (Pt Int)) (h : area2 r ≠ 0) : 3 ≤ r.length := by
  by_cases hl : r.length < 3
  · exact absurd (area2_short r hl) h
  · omega

theorem appendRing_append (pre : List (List (List (Pt Int)))) (p : List (List (Pt Int))) (r : List (Pt Int)) :
    appendRing (pre ++ [p]) r = pre ++ [p ++ [r]] := by
  induction pre with
  | nil => rfl
  | cons a pre ih =>
    cases hp : pre ++ [p] with
    | nil => simp at hp
    | cons b t => rw [List.cons_append, hp, appendRing, ← hp, ih]; rfl; simp

/-- The words of one ring `p :: ps` at cursor `c`. -/
def ringWords (c p : Pt Int) (ps : List (Pt Int)) : List Word :=
  newCommand cmdMoveTo 1 :: (deltas c [p]).1 ++ newCommand cmdLineTo ps.length :: (deltas p ps).1 ++
        [newCommand cmdClosePath 1]

theorem decode_ring (fuel : Nat) (last : Word) (c : Pt Int) (ret : List (List (List (Pt Int)))) (p : Pt Int)
    (ps : List (Pt Int)) (rest : List Word) (hl : last = 0 ∨ cmdId last = cmdClosePath)
    (hn : Near c (p :: ps)) (h1 : 2 ≤ ps.length) (h2 : ps.length < 2 ^ 29)
    (hr : orientation true (p :: ps) = clockwise ∨ ret ≠ []) :
    decodePolyLoop (fuel + 3) last c ret (ringWords c p ps ++ rest) =
      decodePolyLoop fuel (newCommand cmdClosePath 1) (lastOf p ps)
        (if orientation true (p :: ps) = clockwise then ret ++ [[p :: ps]] else appendRing ret (p :: ps))
        rest := by
  obtain ⟨hn1, hn2⟩ := hn
  have hd : (deltas c [p]).1 = [encodeZigZag (BitVec.ofInt 64 (p.1 - c.1)),
    encodeZigZag (BitVec.ofInt 64 (p.2 - c.2))] := rfl
  simp only [ringWords, hd, List.cons_append, List.nil_append, List.append_assoc]
  have hc1 := count_one cmdMoveTo
  have hi1 := id_move 1
  have hc2 := count_new cmdLineTo ps.length h2
  have hi2 := id_line (ps.length : Int)
  have hi3 := id_close 1
  have hlen := deltas_length p ps
  rw [decodePolyLoop, if_neg (by rw [hc1]; simp), if_pos hi1, if_neg (by tauto)]
  simp only [twoWords]
  rw [decodePt_step c p hn1, decodePolyLoop, if_neg (by rw [hc2, List.length_append, hlen]; omega),
    if_neg (by rw [hi2]; decide), if_pos hi2, if_neg (by rw [hi1]; simp), if_neg (by rw [hc2]; omega)]
  rw [hc2, decodeN_deltas p ps _ hn2]
  simp only
  have fin : ∀ ret', decodePolyLoop (fuel + 1) (newCommand cmdLineTo ps.length) (lastOf p ps) ret'
      (newCommand cmdClosePath 1 :: rest) =
      decodePolyLoop fuel (newCommand cmdClosePath 1) (lastOf p ps) ret' rest := by
    intro ret'
    rw [decodePolyLoop, if_neg (by rw [hi3]; simp), if_neg (by rw [hi3]; decide),
      if_neg (by rw [hi3]; decide), if_pos hi3, if_neg (by rw [hi2]; simp)]
  by_cases ho : orientation true (p :: ps) = clockwise
  · rw [if_pos ho, if_pos ho, fin]
  · rw [if_neg ho, if_neg ho, if_neg (by tauto), fin]

theorem ring_words (b : Bool) (c : Pt Int) (r : List (Pt Int)) (h : area2 r ≠ 0) :
    ∃ p ps, turn b r = p :: ps ∧
      encodeLinearRing (if b then clockwise else counterClockwise) c r = (ringWords c p ps, lastOf p ps) := by
  have h3 := length_of_area r h
  have hne : turn b r ≠ [] := by
    intro hc; have := turn_length b r; rw [hc] at this; simp at this; omega
  obtain ⟨p, ps, hp⟩ := List.exists_cons_of_ne_nil hne
  refine ⟨p, ps, hp, ?_⟩
  have h0 : orientation true r ≠ colinear := fun hc => h ((orientation_zero true r).1 hc)
  rw [encodeLinearRing]
  simp only [if_neg h0]
  have : (if orientation true r ≠ (if b then clockwise else counterClockwise) then r.reverse else r) = p :: ps := by
    cases b
    · simp only [Bool.false_eq_true, if_false]; rw [pick_ccw r h, hp]
    · simp only [if_true]; rw [pick_cw r h, hp]
  rw [this]
  simp only [deltas_last, lastOf, ringWords]

theorem lastOf_mem (p : Pt Int) (ps : List (Pt Int)) : lastOf p ps ∈ p :: ps := by
  induction ps generalizing p with
  | nil => simp [lastOf]
  | cons q qs ih => exact List.mem_cons_of_mem _ (ih q)

/-- One ring through encoder and decoder. -/
theorem ring_step (b : Bool) (S : List (Pt Int)) (hS : ∀ p ∈ S, ∀ q ∈ S, step p q)
    (last : Word) (c : Pt Int) (hc : c ∈ S) (r : List (Pt Int)) (hrS : ∀ p ∈ r, p ∈ S)
    (h : area2 r ≠ 0) (hlen : r.length ≤ 2 ^ 29) (ret : List (List (List (Pt Int))))
    (hl : last = 0 ∨ cmdId last = cmdClosePath) (hret : b = true ∨ ret ≠ []) :
    (encodeLinearRing (if b then clockwise else counterClockwise) c r).2 ∈ S ∧
    3 ≤ (encodeLinearRing (if b then clockwise else counterClockwise) c r).1.length ∧
    ∀ fuel rest, decodePolyLoop (fuel + 3) last c ret
        ((encodeLinearRing (if b then clockwise else counterClockwise) c r).1 ++ rest) =
      decodePolyLoop fuel (newCommand cmdClosePath 1)
        (encodeLinearRing (if b then clockwise else counterClockwise) c r).2
        (if b then ret ++ [[turn b r]] else appendRing ret (turn b r)) rest := by
  obtain ⟨p, ps, hp, he⟩ := ring_words b c r h
  have hmem : ∀ q ∈ p :: ps, q ∈ S := by
    intro q hq; exact hrS q ((turn_mem b r q).1 (hp ▸ hq))
  have h3 := length_of_area r h
  have hl2 : ps.length + 1 = r.length := by
    have := turn_length b r; rw [hp] at this; simpa using this
  have hw := turn_winding b r h
  rw [hp] at hw
  have ho : orientation true (p :: ps) = clockwise ↔ b = true := by
    rw [orientation_cw_iff true _ hw.2, hw.1]
  rw [he]
  refine ⟨hmem _ (lastOf_mem p ps), by simp [ringWords, deltas_length], ?_⟩
  intro fuel rest
  rw [decode_ring fuel last c ret p ps rest hl
    (near_of _ _ (fun x hx y hy => hS x (by rcases List.mem_cons.1 hx with rfl | hx; exacts [hc, hmem x hx]) y
      (by rcases List.mem_cons.1 hy with rfl | hy; exacts [hc, hmem y hy])))
    (by omega) (by omega) (by rw [ho]; exact hret), hp]
  cases b
  · have : ¬ orientation true (p :: ps) = clockwise := by rw [ho]; simp
    simp only [if_neg this, Bool.false_eq_true, if_false]
  · simp only [ho.2 rfl, if_true]

theorem inner_rings (S : List (Pt Int)) (hS : ∀ p ∈ S, ∀ q ∈ S, step p q) (rs : List (List (Pt Int))) :
    ∀ (i : Nat) (last : Word) (c : Pt Int) (pre : List (List (List (Pt Int)))) (poly : List (List (Pt Int))),
    i ≠ 0 → c ∈ S → (∀ r ∈ rs, (∀ p ∈ r, p ∈ S) ∧ r.length ≤ 2 ^ 29) → cmdId last = cmdClosePath →
    (encodeRings i c rs).2 ∈ S ∧
    ∀ fuel rest, (encodeRings i c rs).1.length + rest.length ≤ fuel →
      ∃ fuel' last', rest.length ≤ fuel' ∧ cmdId last' = cmdClosePath ∧
      decodePolyLoop fuel last c (pre ++ [poly]) ((encodeRings i c rs).1 ++ rest) =
        decodePolyLoop fuel' last' (encodeRings i c rs).2
          (pre ++ [poly ++ (rs.filter (fun r => decide (area2 r ≠ 0))).map (turn false)]) rest := by
  induction rs with
  | nil =>
    intro i last c pre poly _ hc _ hl
    refine ⟨hc, fun fuel rest hf => ⟨fuel, last, by simp [encodeRings] at hf; exact hf, hl, ?_⟩⟩
    simp [encodeRings]
  | cons r rs ih =>
    intro i last c pre poly hi hc hrs hl
    obtain ⟨hrS, hrl⟩ := hrs r (by simp)
    have hrs' : ∀ r ∈ rs, (∀ p ∈ r, p ∈ S) ∧ r.length ≤ 2 ^ 29 := fun q hq => hrs q (by simp [hq])
    rw [encodeRings]
    by_cases h2 : r.length < 2
    · have h0 : area2 r = 0 := area2_short r (by omega)
      simp only [if_pos h2, if_pos hi]
      have := ih (i + 1) last c pre poly (by omega) hc hrs' hl
      simpa [h0] using this
    · simp only [if_neg h2, if_neg hi]
      by_cases h0 : area2 r = 0
      · have : encodeLinearRing counterClockwise c r = ([], c) := by
          simp [encodeLinearRing, (orientation_zero true r).2 h0, colinear]
        simp only [this]
        have := ih (i + 1) last c pre poly (by omega) hc hrs' hl
        simpa [h0] using this
      · obtain ⟨s1, s2, s3⟩ := ring_step false S hS last c hc r hrS h0 hrl (pre ++ [poly]) (.inr hl) (.inr (by simp))
        simp only [Bool.false_eq_true, if_false] at s1 s2 s3
        obtain ⟨t1, t2⟩ := ih (i + 1) (newCommand cmdClosePath 1) (encodeLinearRing counterClockwise c r).2 pre
          (poly ++ [turn false r]) (by omega) s1 hrs' (id_close 1)
        refine ⟨t1, ?_⟩
        intro fuel rest hf
        simp only [List.length_append] at hf
        obtain ⟨fuel, rfl⟩ : ∃ k, fuel = k + 3 := ⟨fuel - 3, by omega⟩
        obtain ⟨f', l', g1, g2, g3⟩ := t2 fuel rest (by omega)
        refine ⟨f', l', g1, g2, ?_⟩
        rw [List.append_assoc, s3, appendRing_append, g3]
        simp [h0]

theorem polygon_step (S : List (Pt Int)) (hS : ∀ p ∈ S, ∀ q ∈ S, step p q) (rs : List (List (Pt Int)))
    (last : Word) (c : Pt Int) (ret : List (List (List (Pt Int)))) (hc : c ∈ S)
    (hrs : ∀ r ∈ rs, (∀ p ∈ r, p ∈ S) ∧ r.length ≤ 2 ^ 29) (hp : properPolygon rs)
    (hl : last = 0 ∨ cmdId last = cmdClosePath) :
    (encodePolygon c rs).2 ∈ S ∧
    ∀ fuel rest, (encodePolygon c rs).1.length + rest.length ≤ fuel →
      ∃ fuel' last', rest.length ≤ fuel' ∧ cmdId last' = cmdClosePath ∧
      decodePolyLoop fuel last c ret ((encodePolygon c rs).1 ++ rest) =
        decodePolyLoop fuel' last' (encodePolygon c rs).2 (ret ++ [tilePolygon rs]) rest := by
  cases rs with
  | nil => exact absurd hp (by simp [properPolygon])
  | cons r rs =>
    have h0 : area2 r ≠ 0 := hp
    obtain ⟨hrS, hrl⟩ := hrs r (by simp)
    have h3 := length_of_area r h0
    obtain ⟨s1, s2, s3⟩ := ring_step true S hS last c hc r hrS h0 hrl ret hl (.inl rfl)
    simp only [if_true] at s1 s2 s3
    obtain ⟨t1, t2⟩ := inner_rings S hS rs 1 (newCommand cmdClosePath 1) (encodeLinearRing clockwise c r).2
      ret [turn true r] (by omega) s1 (fun q hq => hrs q (by simp [hq])) (id_close 1)
    rw [encodePolygon, encodeRings]
    simp only [if_neg (show ¬ r.length < 2 by omega), if_true, Nat.zero_add]
    refine ⟨t1, ?_⟩
    intro fuel rest hf
    simp only [List.length_append] at hf
    obtain ⟨fuel, rfl⟩ : ∃ k, fuel = k + 3 := ⟨fuel - 3, by omega⟩
    obtain ⟨f', l', g1, g2, g3⟩ := t2 fuel rest (by omega)
    refine ⟨f', l', g1, g2, ?_⟩
    rw [List.append_assoc, s3, g3]
    rfl

theorem polygons_step (S : List (Pt Int)) (hS : ∀ p ∈ S, ∀ q ∈ S, step p q)
    (ps : List (List (List (Pt Int)))) : ∀ (last : Word) (c : Pt Int) (ret : List (List (List (Pt Int)))),
    c ∈ S → (∀ rs ∈ ps, properPolygon rs ∧ ∀ r ∈ rs, (∀ p ∈ r, p ∈ S) ∧ r.length ≤ 2 ^ 29) →
    (last = 0 ∨ cmdId last = cmdClosePath) →
    ∀ fuel, (encodePolygons c ps).1.length ≤ fuel →
      decodePolyLoop fuel last c ret (encodePolygons c ps).1 = .ok (ret ++ ps.map tilePolygon) := by
  induction ps with
  | nil =>
    intro last c ret _ _ _ fuel _
    cases fuel <;> simp [encodePolygons, decodePolyLoop]
  | cons p ps ih =>
    intro last c ret hc hps hl fuel hf
    obtain ⟨hp, hr⟩ := hps p (by simp)
    obtain ⟨s1, s2⟩ := polygon_step S hS p last c ret hc hr hp hl
    rw [encodePolygons] at hf ⊢
    simp only [List.length_append] at hf
    obtain ⟨f', l', g1, g2, g3⟩ := s2 fuel _ hf
    simp only [g3]
    rw [ih l' _ _ s1 (fun q hq => hps q (by simp [hq])) (.inr g2) f' g1]
    simp


/-! ### Sequences of commands -/

theorem line_word_id (n : Nat) : cmdId (BitVec.ofNat 32 (2 + 8 * n)) = cmdLineTo := by
  unfold cmdId cmdLineTo
  apply BitVec.eq_of_toNat_eq
  rw [BitVec.toNat_and, show (7#32).toNat = 2 ^ 3 - 1 from rfl, Nat.and_two_pow_sub_one_eq_mod, BitVec.toNat_ofNat]
  have : (2#32).toNat = 2 := rfl
  show _ = (2#32).toNat
  omega

theorem line_word_count (n : Nat) (h : n < 2 ^ 29) : cmdCount (BitVec.ofNat 32 (2 + 8 * n)) = n := by
  unfold cmdCount
  rw [BitVec.toNat_ushiftRight, BitVec.toNat_ofNat, Nat.shiftRight_eq_div_pow]
  omega

theorem params_length (ps : List (Word × Word)) : (ps.flatMap (fun p => [p.1, p.2])).length = ps.length * 2 := by
  induction ps with
  | nil => rfl
  | cons p ps ih => simp [List.flatMap_cons, ih]; omega

theorem decodeN_params (ps : List (Word × Word)) : ∀ (c : Pt Int) (rest : List Word),
    (decodeN ps.length c (ps.flatMap (fun p => [p.1, p.2]) ++ rest)).2.2 = rest ∧
    (decodeN ps.length c (ps.flatMap (fun p => [p.1, p.2]) ++ rest)).1.length = ps.length := by
  induction ps with
  | nil => intro c rest; cases rest <;> simp [decodeN]
  | cons p ps ih =>
    intro c rest
    simp only [List.flatMap_cons, List.cons_append, List.nil_append, List.length_cons, decodeN]
    exact ⟨(ih _ rest).1, by rw [(ih _ rest).2]⟩

theorem commands_lines (cs : List Command) : ∀ (fuel : Nat) (last : Word) (c : Pt Int) (ret : List (List (Pt Int))),
    (∀ x ∈ cs, x.fits) → (cs.flatMap Command.words).length ≤ fuel →
    decodeLinesLoop fuel last c ret (cs.flatMap Command.words) ≠ .error .panic ∧
    (decodeLinesLoop fuel last c ret (cs.flatMap Command.words) = .ok [] →
      ret = [] ∧ ∀ x ∈ cs, x.isLineTo = false) := by
  induction cs with
  | nil =>
    intro fuel last c ret _ _
    cases fuel <;> simp [decodeLinesLoop]
  | cons x cs ih =>
    intro fuel last c ret hfit hlen
    have hfit' : ∀ x ∈ cs, x.fits := fun y hy => hfit y (by simp [hy])
    rw [List.flatMap_cons] at hlen ⊢
    rw [List.length_append] at hlen
    cases x with
    | moveTo a b =>
      simp only [Command.words, List.cons_append, List.nil_append, List.length_cons, List.length_nil] at hlen ⊢
      obtain ⟨fuel, rfl⟩ : ∃ k, fuel = k + 1 := ⟨fuel - 1, by omega⟩
      rw [decodeLinesLoop]
      have h1 : cmdId 9#32 = cmdMoveTo := by decide
      have h2 : cmdCount 9#32 = 1 := by decide
      rw [if_neg (by rw [h2]; simp), if_pos h1]
      split
      · simp
      · simp only [twoWords]
        have := ih fuel 9#32 (decodePt c a b) ret hfit' (by omega)
        refine ⟨this.1, fun h => ⟨(this.2 h).1, ?_⟩⟩
        simpa [Command.isLineTo] using (this.2 h).2
    | lineTo ps =>
      simp only [Command.words, List.cons_append, List.length_cons] at hlen ⊢
      obtain ⟨fuel, rfl⟩ : ∃ k, fuel = k + 1 := ⟨fuel - 1, by omega⟩
      rw [decodeLinesLoop]
      have h1 := line_word_id ps.length
      have h2 := line_word_count ps.length (hfit (.lineTo ps) (by simp))
      rw [if_neg (by rw [h2, List.length_append, params_length]; omega), if_neg (by rw [h1]; decide), if_pos h1]
      split
      · simp
      · split
        · simp
        · simp only []
          rw [h2, (decodeN_params ps c _).1]
          have := ih fuel (BitVec.ofNat 32 (2 + 8 * ps.length))
            (decodeN ps.length c (List.flatMap (fun p => [p.1, p.2]) ps ++ List.flatMap Command.words cs)).2.1
            (ret ++ [c :: (decodeN ps.length c (List.flatMap (fun p => [p.1, p.2]) ps ++ List.flatMap Command.words cs)).1])
            hfit' (by omega)
          refine ⟨this.1, fun h => ?_⟩
          have := (this.2 h).1
          simp at this
    | closePath =>
      simp only [Command.words, List.cons_append, List.nil_append, List.length_cons, List.length_nil] at hlen ⊢
      obtain ⟨fuel, rfl⟩ : ∃ k, fuel = k + 1 := ⟨fuel - 1, by omega⟩
      rw [decodeLinesLoop]
      have h1 : cmdId 15#32 ≠ cmdMoveTo := by decide
      have h2 : cmdId 15#32 ≠ cmdLineTo := by decide
      split
      · simp
      · simp [h1, h2]

theorem appendRing_ne (ret : List (List (List (Pt Int)))) (r : List (Pt Int)) (h : ret ≠ []) : appendRing ret r ≠ [] := by
  match ret, h with
  | [p], _ => simp [appendRing]
  | p :: q :: ps, _ => simp [appendRing]

theorem commands_poly (cs : List Command) : ∀ (fuel : Nat) (last : Word) (c : Pt Int)
    (ret : List (List (List (Pt Int)))),
    (∀ x ∈ cs, x.fits) → (cs.flatMap Command.words).length ≤ fuel →
    decodePolyLoop fuel last c ret (cs.flatMap Command.words) ≠ .error .panic ∧
    (decodePolyLoop fuel last c ret (cs.flatMap Command.words) = .ok [] →
      ret = [] ∧ ∀ x ∈ cs, x.isLineTo = false) := by
  induction cs with
  | nil =>
    intro fuel last c ret _ _
    cases fuel <;> simp [decodePolyLoop]
  | cons x cs ih =>
    intro fuel last c ret hfit hlen
    have hfit' : ∀ x ∈ cs, x.fits := fun y hy => hfit y (by simp [hy])
    rw [List.flatMap_cons] at hlen ⊢
    rw [List.length_append] at hlen
    cases x with
    | moveTo a b =>
      simp only [Command.words, List.cons_append, List.nil_append, List.length_cons, List.length_nil] at hlen ⊢
      obtain ⟨fuel, rfl⟩ : ∃ k, fuel = k + 1 := ⟨fuel - 1, by omega⟩
      rw [decodePolyLoop]
      have h1 : cmdId 9#32 = cmdMoveTo := by decide
      have h2 : cmdCount 9#32 = 1 := by decide
      rw [if_neg (by rw [h2]; simp), if_pos h1]
      split
      · simp
      · simp only [twoWords]
        have := ih fuel 9#32 (decodePt c a b) ret hfit' (by omega)
        refine ⟨this.1, fun h => ⟨(this.2 h).1, ?_⟩⟩
        simpa [Command.isLineTo] using (this.2 h).2
    | lineTo ps =>
      simp only [Command.words, List.cons_append, List.length_cons] at hlen ⊢
      obtain ⟨fuel, rfl⟩ : ∃ k, fuel = k + 1 := ⟨fuel - 1, by omega⟩
      rw [decodePolyLoop]
      have h1 := line_word_id ps.length
      have h2 := line_word_count ps.length (hfit (.lineTo ps) (by simp))
      rw [if_neg (by rw [h2, List.length_append, params_length]; omega), if_neg (by rw [h1]; decide), if_pos h1]
      split
      · simp
      · split
        · simp
        · simp only []
          rw [h2, (decodeN_params ps c _).1]
          split
          · have := ih fuel (BitVec.ofNat 32 (2 + 8 * ps.length))
              (decodeN ps.length c (List.flatMap (fun p => [p.1, p.2]) ps ++ List.flatMap Command.words cs)).2.1
              (ret ++ [[c :: (decodeN ps.length c (List.flatMap (fun p => [p.1, p.2]) ps ++ List.flatMap Command.words cs)).1]])
              hfit' (by omega)
            refine ⟨this.1, fun h => ?_⟩
            have := (this.2 h).1
            simp at this
          · split
            · simp
            · rename_i hret
              have := ih fuel (BitVec.ofNat 32 (2 + 8 * ps.length))
                (decodeN ps.length c (List.flatMap (fun p => [p.1, p.2]) ps ++ List.flatMap Command.words cs)).2.1
                (appendRing ret (c :: (decodeN ps.length c (List.flatMap (fun p => [p.1, p.2]) ps ++ List.flatMap Command.words cs)).1))
                hfit' (by omega)
              exact ⟨this.1, fun h => absurd (this.2 h).1 (appendRing_ne _ _ hret)⟩
    | closePath =>
      simp only [Command.words, List.cons_append, List.nil_append, List.length_cons, List.length_nil] at hlen ⊢
      obtain ⟨fuel, rfl⟩ : ∃ k, fuel = k + 1 := ⟨fuel - 1, by omega⟩
      rw [decodePolyLoop]
      have h1 : cmdId 15#32 = cmdClosePath := by decide
      have h2 : cmdId 15#32 ≠ cmdLineTo := by decide
      have h3 : cmdId 15#32 ≠ cmdMoveTo := by decide
      rw [if_neg (by simp [h1]), if_neg h3, if_neg h2, if_pos h1]
      split
      · simp
      · have := ih fuel 15#32 c ret hfit' (by omega)
        refine ⟨this.1, fun h => ⟨(this.2 h).1, ?_⟩⟩
        simpa [Command.isLineTo] using (this.2 h).2

theorem decodeN_exact (n : Nat) : ∀ (c : Pt Int) (b : List Word), n * 2 ≤ b.length →
    (decodeN n c b).1.length = n ∧ (decodeN n c b).2.2 = b.drop (n * 2) := by
  induction n with
  | zero => intro c b _; cases b <;> simp [decodeN]
  | succ n ih =>
    intro c b h
    match b, h with
    | x :: y :: b, h =>
      have := ih (decodePt c x y) b (by simp at h; omega)
      have e : (n + 1) * 2 = n * 2 + 1 + 1 := by omega
      simp only [decodeN, List.length_cons, this.1, this.2, e, List.drop_succ_cons, and_self]
    | [x], h => simp at h; omega
    | [], h => simp at h

end Verif.Mvt
