import Verif.Lemmas.Mvt

/-!
# MVT geometry words (C06–C08, C53)
-/

namespace Verif.Props
open Verif Verif.Mvt Verif.Winding Verif.Spec.Winding Verif.Spec.Mvt Verif.Spec.Extent

/-! ## C06 -/

/-- C06: decoding the zig-zag word of any signed 32-bit number returns it. -/
theorem C06_zigzag_roundtrip (x : Int) (h1 : -2 ^ 31 ≤ x) (h2 : x < 2 ^ 31) :
    (decodeZigZag (encodeZigZag (BitVec.ofInt 64 x))).toInt = x := zigzag_int x h1 h2

example : (-2 : Int) ^ 31 ≤ -2147483648 ∧ (-2147483648 : Int) < 2 ^ 31 := by decide

/-- C06: every word is the zig-zag word of the number it decodes to, so no two
32-bit numbers share a word. -/
theorem C06_zigzag_onto (w : Word) :
    encodeZigZag (BitVec.ofInt 64 (decodeZigZag w).toInt) = w := unzigzag w

/-- C06: the word is the standard one: twice the number, or twice its distance
from −1 plus one for negative numbers. -/
theorem C06_zigzag_standard (x : Int) (h1 : -2 ^ 31 ≤ x) (h2 : x < 2 ^ 31) :
    (encodeZigZag (BitVec.ofInt 64 x)).toNat = if 0 ≤ x then 2 * x.toNat else 2 * (-x - 1).toNat + 1 := by
  have key : ∀ w : Word, (decodeZigZag w).toInt = x → (encodeZigZag (BitVec.ofInt 64 x)).toNat = w.toNat := by
    intro w hw
    rw [← hw, C06_zigzag_onto]
  split
  · rename_i h0
    have := key (BitVec.ofNat 32 (2 * x.toNat)) (by
      unfold decodeZigZag
      have hl : (BitVec.ofNat 32 (2 * x.toNat)).getLsbD 0 = false := by
        rw [BitVec.getLsbD_ofNat, Nat.testBit_zero]; simp
      rw [neg_lsb, hl]
      simp only [Bool.false_eq_true, if_false, BitVec.xor_zero]
      rw [BitVec.toInt_eq_toNat_bmod, BitVec.toNat_ushiftRight, BitVec.toNat_ofNat,
        Nat.mod_eq_of_lt (by omega), Nat.shiftRight_eq_div_pow, Int.bmod_def]
      omega)
    rw [this, BitVec.toNat_ofNat]; omega
  · rename_i h0
    have := key (BitVec.ofNat 32 (2 * (-x - 1).toNat + 1)) (by
      unfold decodeZigZag
      have hl : (BitVec.ofNat 32 (2 * (-x - 1).toNat + 1)).getLsbD 0 = true := by
        simp [BitVec.getLsbD_ofNat]
      rw [neg_lsb, hl]
      simp only [if_true, BitVec.xor_allOnes]
      rw [BitVec.toInt_eq_toNat_bmod, BitVec.toNat_not, BitVec.toNat_ushiftRight, BitVec.toNat_ofNat,
        Nat.mod_eq_of_lt (by omega), Nat.shiftRight_eq_div_pow, Int.bmod_def]
      omega)
    rw [this, BitVec.toNat_ofNat]; omega

example : encodeZigZag (BitVec.ofInt 64 (-3)) = 5#32 ∧ encodeZigZag (BitVec.ofInt 64 3) = 6#32 := by decide

/-- C06: a number outside the 32-bit range never survives. -/
theorem C06_zigzag_lossy (x : Int) (h : x < -2 ^ 31 ∨ 2 ^ 31 ≤ x) :
    (decodeZigZag (encodeZigZag (BitVec.ofInt 64 x))).toInt ≠ x := by
  intro hc
  have h1 := BitVec.le_toInt (decodeZigZag (encodeZigZag (BitVec.ofInt 64 x)))
  have h2 := BitVec.toInt_lt (x := decodeZigZag (encodeZigZag (BitVec.ofInt 64 x)))
  rw [hc] at h1 h2
  omega

example : (2 : Int) ^ 31 ≤ 2147483648 := by decide

/-- C06: a packed command gives back its id and its count. -/
theorem C06_command_roundtrip (id : Word) (n : Nat) (hid : id.toNat < 8) (hn : n < 2 ^ 29) :
    cmdId (newCommand id n) = id ∧ cmdCount (newCommand id n) = n := by
  refine ⟨?_, count_new id n hn⟩
  rw [cmdId_new]
  apply BitVec.eq_of_toNat_eq
  rw [BitVec.toNat_and, show (7#32).toNat = 2 ^ 3 - 1 from rfl, Nat.and_two_pow_sub_one_eq_mod]
  omega

example : (7#32).toNat < 8 ∧ 536870911 < 2 ^ 29 := by decide

/-- C06: whatever the count, only its value modulo 2^29 survives, so a larger count
is always lost. -/
theorem C06_command_count_mod (id : Word) (n : Nat) :
    cmdCount (newCommand id n) = n % 2 ^ 29 ∧ (2 ^ 29 ≤ n → cmdCount (newCommand id n) ≠ n) := by
  refine ⟨cmdCount_new id n, fun h => ?_⟩
  rw [cmdCount_new]
  have := Nat.mod_lt n (show 0 < 2 ^ 29 by decide)
  omega

example : 2 ^ 29 ≤ 536870912 := by decide

/-! ## C07 -/

/-- C07: any point survives. -/
theorem C07_point (p : Pt Int) (h : InRange (.point p)) :
    ∃ ws, encodeGeometry (.point p) = .ok ws .point ∧ decodeGeometry .point ws = .ok (some (.point p)) := by
  refine ⟨_, rfl, ?_⟩
  have hn : Near (0, 0) [p] := near_of _ _ h
  have hd := decodeN_deltas (0, 0) [p] [] hn
  simp only [List.append_nil] at hd
  simp only [moveTo, encodeCmd, decodeGeometry, decodePoints, deltas_length]
  rw [if_neg (by rw [count_new _ _ (by simp)]; simp), if_neg (by rw [id_move]; simp),
    count_new _ _ (by simp), hd]
  simp

example : InRange (.point (-1073741824, 1073741823)) := inRange_of_bound _ (by decide)

/-- C07: any non-empty multipoint survives; a single one comes back as a point. -/
theorem C07_multiPoint (ps : List (Pt Int)) (hne : ps ≠ []) (hlen : ps.length < 2 ^ 29)
    (h : InRange (.multiPoint ps)) :
    ∃ ws, encodeGeometry (.multiPoint ps) = .ok ws .point ∧
      decodeGeometry .point ws = .ok (some (single (.multiPoint ps))) := by
  refine ⟨_, rfl, ?_⟩
  have hn : Near (0, 0) ps := near_of _ _ h
  have hd := decodeN_deltas (0, 0) ps [] hn
  simp only [List.append_nil] at hd
  match ps, hne with
  | p :: t, _ =>
    simp only [moveTo, encodeCmd, decodeGeometry, decodePoints, deltas_length]
    rw [if_neg (by rw [count_new _ _ hlen]; simp), if_neg (by rw [id_move]; simp),
      count_new _ _ hlen, hd]
    cases t <;> simp [single]

example : ([(0, 0), (3, -4)] : List (Pt Int)) ≠ [] ∧ [((0 : Int), (0 : Int)), (3, -4)].length < 2 ^ 29 ∧
    InRange (.multiPoint [(0, 0), (3, -4)]) :=
  ⟨by decide, by decide, inRange_of_bound _ (by decide)⟩

/-- C07: any linestring of at least two vertices survives. -/
theorem C07_lineString (l : List (Pt Int)) (h2 : 2 ≤ l.length) (hlen : l.length ≤ 2 ^ 29)
    (h : InRange (.lineString l)) :
    ∃ ws, encodeGeometry (.lineString l) = .ok ws .lineString ∧
      decodeGeometry .lineString ws = .ok (some (.lineString l)) := by
  match l, h2 with
  | p :: q :: t, _ =>
    have hn : Near (0, 0) (p :: q :: t) := near_of _ _ h
    have key : ∀ k, ∃ e, encodeLine (0, 0) (p :: q :: t) = some e ∧ 2 ≤ e.1.length ∧
        decodeLinesLoop (k + 2) 0 (0, 0) [] e.1 = .ok [p :: q :: t] := by
      intro k
      obtain ⟨e, h1, _, h3, h4⟩ := decode_line k 0 (0, 0) [] p (q :: t) [] (.inl rfl) hn (by simp)
        (by simp at hlen ⊢; omega)
      refine ⟨e, h1, h3, ?_⟩
      rw [List.append_nil] at h4
      rw [h4]
      cases k <;> simp [decodeLinesLoop]
    obtain ⟨e, he, hl, _⟩ := key 0
    refine ⟨e.1, by simp only [encodeGeometry, he], ?_⟩
    obtain ⟨e', he', _, hd⟩ := key (e.1.length - 2)
    rw [he] at he'
    cases he'
    rw [show e.1.length - 2 + 2 = e.1.length by omega] at hd
    simp only [decodeGeometry, decodeLineString, hd]
    rfl

example : 2 ≤ ([(0, 0), (3, -4)] : List (Pt Int)).length ∧ InRange (.lineString [(0, 0), (3, -4)]) :=
  ⟨by decide, inRange_of_bound _ (by decide)⟩

/-- C07: any non-empty multilinestring whose lines have at least two vertices
survives; a single one comes back as a linestring. -/
theorem C07_multiLineString (ls : List (List (Pt Int))) (hne : ls ≠ [])
    (hlen : ∀ l ∈ ls, 2 ≤ l.length ∧ l.length ≤ 2 ^ 29) (h : InRange (.multiLineString ls)) :
    ∃ ws, encodeGeometry (.multiLineString ls) = .ok ws .lineString ∧
      decodeGeometry .lineString ws = .ok (some (single (.multiLineString ls))) := by
  have key := fun f (hf : 2 * ls.length ≤ f) => decode_lines ls f 0 (0, 0) [] (.inl rfl) h hlen hf
  obtain ⟨e, he, hl, _⟩ := key _ (Nat.le_refl _)
  refine ⟨e.1, by simp only [encodeGeometry, he], ?_⟩
  obtain ⟨e', he', _, hd⟩ := key e.1.length hl
  rw [he] at he'
  cases he'
  simp only [decodeGeometry, decodeLineString, hd]
  match ls, hne with
  | [l], _ => rfl
  | l :: m :: t, _ => rfl

example : ∀ l ∈ ([[(0, 0), (3, -4)], [(1, 1), (1, 1), (2, 0)]] : List (List (Pt Int))),
    (2 ≤ l.length ∧ l.length ≤ 2 ^ 29) ∧
    InRange (.multiLineString [[(0, 0), (3, -4)], [(1, 1), (1, 1), (2, 0)]]) :=
  fun l hl => ⟨by revert l; decide, inRange_of_bound _ (by decide)⟩

/-! ## C08 -/

/-- C08: any non-empty multipolygon whose polygons have a first ring of non-zero
area survives: ring for ring, each as it was or reversed so that the first ring is
clockwise on screen and the others counter-clockwise; interior rings without area
are left out.  A single polygon comes back as a polygon. -/
theorem C08_multiPolygon (ps : List (List (List (Pt Int)))) (hne : ps ≠ [])
    (hp : ∀ p ∈ ps, properPolygon p) (hlen : ∀ p ∈ ps, ∀ r ∈ p, r.length ≤ 2 ^ 29)
    (h : InRange (.multiPolygon ps)) :
    ∃ ws, encodeGeometry (.multiPolygon ps) = .ok ws .polygon ∧
      decodeGeometry .polygon ws = .ok (some (single (.multiPolygon (ps.map tilePolygon)))) := by
  refine ⟨_, rfl, ?_⟩
  have := polygons_step ((0, 0) :: verticesOf (.multiPolygon ps)) h ps 0 (0, 0) [] (by simp)
    (fun rs hrs => ⟨hp rs hrs, fun r hr => ⟨fun p hpr => List.mem_cons_of_mem _ ?_, hlen rs hrs r hr⟩⟩)
    (.inl rfl) _ (Nat.le_refl _)
  · simp only [decodeGeometry, decodePoly, this, List.nil_append]
    match ps, hne with
    | [p], _ => rfl
    | p :: q :: t, _ => rfl
  · simp only [verticesOf, List.mem_flatten]
    exact ⟨r, ⟨rs, hrs, hr⟩, hpr⟩

/-- A polygon with a wrongly wound outer ring, a hole and a degenerate ring. -/
def mvtPoly : List (List (Pt Int)) :=
  [[(0, 0), (0, 9), (9, 9), (9, 0)], [(1, 1), (2, 1), (2, 2)], [(5, 5), (6, 6), (7, 7)]]

example : properPolygon mvtPoly ∧ InRange (.multiPolygon [mvtPoly]) ∧
    tilePolygon mvtPoly = [[(9, 0), (9, 9), (0, 9), (0, 0)], [(2, 2), (2, 1), (1, 1)]] := by
  exact ⟨by unfold properPolygon mvtPoly; decide, inRange_of_bound _ (by decide), by decide⟩

/-- C08 for a single polygon. -/
theorem C08_polygon (p : List (List (Pt Int))) (hp : properPolygon p)
    (hlen : ∀ r ∈ p, r.length ≤ 2 ^ 29) (h : InRange (.polygon p)) :
    ∃ ws, encodeGeometry (.polygon p) = .ok ws .polygon ∧
      decodeGeometry .polygon ws = .ok (some (.polygon (tilePolygon p))) := by
  have h' : InRange (.multiPolygon [p]) := by
    intro a ha b hb
    refine h a ?_ b ?_
    · simpa [verticesOf] using ha
    · simpa [verticesOf] using hb
  obtain ⟨ws, h1, h2⟩ := C08_multiPolygon [p] (by simp) (by simpa using hp) (by simpa using hlen) h'
  refine ⟨ws, ?_, h2⟩
  simp only [encodeGeometry, encodePolygons, List.append_nil] at h1 ⊢
  exact h1

example : (∀ r ∈ mvtPoly, r.length ≤ 2 ^ 29) ∧ InRange (.polygon mvtPoly) :=
  ⟨by decide, inRange_of_bound _ (by decide)⟩

/-- C08: what comes back is wound as the MVT specification asks: positive area
(clockwise on screen) for the first ring, negative for all others; each ring is a
ring of the input or its reverse. -/
theorem C08_windings (p : List (List (Pt Int))) (hp : properPolygon p) :
    (∀ r ∈ (tilePolygon p).head?, 0 < area2 r) ∧ (∀ r ∈ (tilePolygon p).tail, area2 r < 0) ∧
    ∀ r ∈ tilePolygon p, r ∈ p ∨ r.reverse ∈ p := by
  cases p with
  | nil => exact absurd hp (by simp [properPolygon])
  | cons r rs =>
    have h0 : area2 r ≠ 0 := hp
    have hor : ∀ b (q : List (Pt Int)), turn b q = q ∨ (turn b q).reverse = q := by
      intro b q; rw [turn]; split <;> simp
    refine ⟨?_, ?_, ?_⟩
    · intro q hq
      simp only [tilePolygon, List.head?_cons, Option.mem_def, Option.some.injEq] at hq
      subst hq
      simpa using (turn_winding true r h0).1
    · intro q hq
      simp only [tilePolygon, List.tail_cons, List.mem_map, List.mem_filter, decide_eq_true_eq] at hq
      obtain ⟨a, ⟨_, ha⟩, rfl⟩ := hq
      have := turn_winding false a ha
      have h1 : ¬ 0 < area2 (turn false a) := by simpa using this.1
      have := this.2
      omega
    · intro q hq
      simp only [tilePolygon, List.mem_cons, List.mem_map, List.mem_filter, decide_eq_true_eq] at hq
      rcases hq with rfl | ⟨a, ⟨ha, _⟩, rfl⟩
      · rcases hor true r with h | h
        · rw [h]; simp
        · rw [h]; simp
      · rcases hor false a with h | h
        · rw [h]; simp [ha]
        · rw [h]; simp [ha]

/-- C08 needs the first ring to have area: when it has none it is dropped but the
holes stay, and the result cannot be decoded. -/
theorem C08_degenerate_exterior_lost :
    ∃ p : List (List (Pt Int)), InRange (.polygon p) ∧ (∃ r ∈ p, area2 r ≠ 0) ∧
      ∃ ws, encodeGeometry (.polygon p) = .ok ws .polygon ∧
        decodeGeometry .polygon ws = .error .noExterior := by
  exact ⟨[[(0, 0), (1, 1), (2, 2)], [(0, 0), (1, 0), (1, 1)]], inRange_of_bound _ (by decide),
    ⟨[(0, 0), (1, 0), (1, 1)], by simp, by decide⟩, _, rfl, by decide +kernel⟩

/-! ## C53 -/

/-- C53, in full: decoding never panics, whatever the words. -/
def C53_full : Prop := ∀ (t : GType) (ws : List Word), decodeGeometry t ws ≠ .error .panic

/-- C53 for points.  Missing: linestrings and polygons, where the code panics. -/
theorem C53_point_never_panics_partial (ws : List Word) : decodeGeometry .point ws ≠ .error .panic := by
  simp only [decodeGeometry, decodePoints]
  cases ws with
  | nil => simp
  | cons w ws =>
    simp only
    split
    · simp
    · split
      · simp
      · split
        · simp
        · split <;> simp

/-- C53 is violated: a linestring of no words, and one whose MoveTo has count 0. -/
theorem C53_violated : ¬ C53_full ∧ decodeGeometry .lineString [] = .error .panic ∧
    decodeGeometry .lineString [newCommand cmdMoveTo 0] = .error .panic ∧
    decodeGeometry .polygon [newCommand cmdMoveTo 1, 0#32, 0#32] = .error .panic :=
  ⟨fun h => h .lineString [] rfl, rfl, by decide, by decide⟩

/-- C53 for messages made of complete commands, in any order, of which at least one
is a LineTo.  Missing: messages that end in the middle of a command, have a MoveTo
with another count than 1, or draw nothing. -/
theorem C53_commands_never_panic_partial (t : GType) (ht : t ≠ .point) (cs : List Command)
    (hf : ∀ c ∈ cs, c.fits) (hl : ∃ c ∈ cs, c.isLineTo = true) :
    decodeGeometry t (cs.flatMap Command.words) ≠ .error .panic := by
  obtain ⟨x, hx, hxl⟩ := hl
  cases t with
  | point => exact absurd rfl ht
  | lineString =>
    obtain ⟨h1, h2⟩ := commands_lines cs (cs.flatMap Command.words).length 0 (0, 0) [] hf (Nat.le_refl _)
    simp only [decodeGeometry, decodeLineString]
    match he : decodeLinesLoop (cs.flatMap Command.words).length 0 (0, 0) [] (cs.flatMap Command.words) with
    | .error e =>
      rw [he] at h1
      simpa [Except.map] using h1
    | .ok [] => have := (h2 he).2 x hx; rw [hxl] at this; simp at this
    | .ok [l] => simp [Except.map]
    | .ok (a :: b :: l) => simp [Except.map]
  | polygon =>
    obtain ⟨h1, h2⟩ := commands_poly cs (cs.flatMap Command.words).length 0 (0, 0) [] hf (Nat.le_refl _)
    simp only [decodeGeometry, decodePoly]
    match he : decodePolyLoop (cs.flatMap Command.words).length 0 (0, 0) [] (cs.flatMap Command.words) with
    | .error e =>
      rw [he] at h1
      simpa [Except.map] using h1
    | .ok [] => have := (h2 he).2 x hx; rw [hxl] at this; simp at this
    | .ok [l] => simp [Except.map]
    | .ok (a :: b :: l) => simp [Except.map]

example : let cs : List Command := [.moveTo 2 4, .closePath, .lineTo [(2, 2), (4, 1)]]
    (∀ c ∈ cs, c.fits) ∧ ∃ c ∈ cs, c.isLineTo = true := by
  refine ⟨?_, by decide⟩
  intro c hc
  simp only [List.mem_cons, List.not_mem_nil, or_false] at hc
  rcases hc with rfl | rfl | rfl <;> simp [Command.fits]

/-! ## C55 -/

/-- C55: a point message is accepted exactly when it is empty or one MoveTo followed
by exactly the two words per point it announces; there are as many points as
announced, and none with nothing announced. -/
theorem C55_point_accepts_iff (ws : List Word) :
    (∃ g, decodeGeometry .point ws = .ok g) ↔
      ws = [] ∨ ∃ cmd ps, ws = cmd :: ps ∧ cmd.toNat % 8 = 1 ∧ ps.length = 2 * (cmd.toNat / 8) := by
  have hid : ∀ cmd : Word, cmdId cmd = cmdMoveTo ↔ cmd.toNat % 8 = 1 := by
    intro cmd
    have h : (cmdId cmd).toNat = cmd.toNat % 8 := by
      rw [cmdId, BitVec.toNat_and, show (7#32).toNat = 2 ^ 3 - 1 from rfl, Nat.and_two_pow_sub_one_eq_mod]
    rw [← h]
    constructor
    · intro e; rw [e]; rfl
    · intro e; exact BitVec.eq_of_toNat_eq e
  have hcount : ∀ cmd : Word, cmdCount cmd = cmd.toNat / 8 := by
    intro cmd
    rw [cmdCount, BitVec.toNat_ushiftRight, Nat.shiftRight_eq_div_pow]
  cases ws with
  | nil => simp [decodeGeometry, decodePoints]
  | cons cmd ps =>
    simp only [decodeGeometry, decodePoints, hcount]
    constructor
    · rintro ⟨g, h⟩
      refine .inr ⟨cmd, ps, rfl, ?_⟩
      split at h
      · simp at h
      · split at h
        · simp at h
        · rename_i h1 h2
          refine ⟨(hid cmd).1 (by simpa using h2), ?_⟩
          split at h
          · simp at h
          · rename_i h3
            have := (decodeN_exact (cmd.toNat / 8) (0, 0) ps (by omega)).2
            simp only [ne_eq, Decidable.not_not] at h3
            rw [h3] at this
            have := congrArg List.length this
            simp at this
            omega
    · rintro (h | ⟨cmd', ps', h, h1, h2⟩)
      · simp at h
      · obtain ⟨rfl, rfl⟩ := List.cons.inj h
        rw [if_neg (by omega), if_neg (by simpa using (hid cmd).2 h1), if_neg]
        · split <;> exact ⟨_, rfl⟩
        · rw [(decodeN_exact (cmd.toNat / 8) (0, 0) ps (by omega)).2]
          simp
          omega

example : (∃ g, decodeGeometry .point [17#32, 2#32, 4#32, 1#32, 1#32] = .ok g) ∧
    ¬ (∃ g, decodeGeometry .point [9#32, 2#32, 4#32, 1#32, 1#32] = .ok g) := by
  constructor
  · exact (C55_point_accepts_iff _).2 (.inr ⟨17#32, _, rfl, by decide, by decide⟩)
  · rw [C55_point_accepts_iff]
    rintro (h | ⟨cmd, ps, h, _, h2⟩)
    · simp at h
    · obtain ⟨rfl, rfl⟩ := List.cons.inj h
      revert h2; decide

/-- C55: the number of points is the number announced. -/
theorem C55_point_count (ws : List Word) (cmd : Word) (ps : List Word) (h : ws = cmd :: ps) (g : Option (Geom Int))
    (hd : decodeGeometry .point ws = .ok g) :
    (match g with
     | none => 0
     | some g => (verticesOf g).length) = cmd.toNat / 8 := by
  subst h
  have hcount : cmdCount cmd = cmd.toNat / 8 := by
    rw [cmdCount, BitVec.toNat_ushiftRight, Nat.shiftRight_eq_div_pow]
  simp only [decodeGeometry, decodePoints, hcount] at hd
  split at hd
  · simp at hd
  · rename_i h1
    split at hd
    · simp at hd
    · have hl := (decodeN_exact (cmd.toNat / 8) (0, 0) ps (by omega)).1
      split at hd
      · simp at hd
      · split at hd
        · rename_i he; rw [he] at hl; cases hd; simpa using hl
        · rename_i he; rw [he] at hl; cases hd; simpa [verticesOf] using hl
        · cases hd; simpa [verticesOf] using hl

example : decodeGeometry .point [17#32, 2#32, 4#32, 1#32, 1#32] = .ok (some (.multiPoint [(1, 2), (0, 1)])) := by
  rfl

end Verif.Props
