import Verif.Model.Wkb
import Verif.Spec.Wkb

namespace Verif.Wkb
open Verif Verif.Spec.Wkb

/-! ## Bytes -/

theorem leBytes_length (k n : Nat) : (leBytes k n).length = k := by
  induction k generalizing n with
  | zero => rfl
  | succ k ih => simp [leBytes, ih]

theorem leNat_leBytes (k n : Nat) : leNat (leBytes k n) = n % 256 ^ k := by
  induction k generalizing n with
  | zero => simp [leBytes, leNat, Nat.mod_one]
  | succ k ih =>
    simp only [leBytes, leNat, ih, BitVec.toNat_ofNat]
    rw [show (256 : Nat) ^ (k + 1) = 256 * 256 ^ k by rw [Nat.pow_succ, Nat.mul_comm], Nat.mod_mul]

theorem leNat_lt (bs : List Byte) : leNat bs < 256 ^ bs.length := by
  induction bs with
  | nil => simp [leNat]
  | cons b bs ih =>
    have := b.isLt
    simp only [leNat, List.length_cons, Nat.pow_succ]
    omega

theorem leBytes_leNat (bs : List Byte) : leBytes bs.length (leNat bs) = bs := by
  induction bs with
  | nil => rfl
  | cons b bs ih =>
    have hb := b.isLt
    have h1 : (b.toNat + 256 * leNat bs) / 256 = leNat bs := by omega
    simp only [List.length_cons, leBytes, leNat, h1, ih, List.cons.injEq, and_true]
    apply BitVec.eq_of_toNat_eq
    simp only [BitVec.toNat_ofNat]
    omega

theorem putN_length (o k n) : (putN o k n).length = k := by
  cases o <;> simp [putN, leBytes_length]

theorem getN_putN (o k n) : getN o (putN o k n) = n % 256 ^ k := by
  cases o <;> simp [putN, getN, leNat_leBytes]

theorem getN_lt (o) (bs : List Byte) : getN o bs < 256 ^ bs.length := by
  cases o
  · have := leNat_lt bs.reverse; simpa [getN] using this
  · exact leNat_lt bs

theorem putN_getN (o) (bs : List Byte) : putN o bs.length (getN o bs) = bs := by
  cases o
  · have := leBytes_leNat bs.reverse
    simp only [List.length_reverse] at this
    simp [putN, getN, this]
  · exact leBytes_leNat bs

def toO : Endian → Order
  | .big => .big
  | .little => .little

def ofO : Order → Endian
  | .big => .big
  | .little => .little

@[simp] theorem toO_ofO (o) : toO (ofO o) = o := by cases o <;> rfl
@[simp] theorem ofO_toO (o) : ofO (toO o) = o := by cases o <;> rfl

theorem u32_eq (e n) : u32 e n = put32 (toO e) n := by
  cases e <;> simp [u32, put32, toO, putN, leBytes, octet, Nat.div_div_eq_div_mul]

theorem u64_eq (e n) : u64 e n = putN (toO e) 8 n := by
  cases e <;> simp [u64, toO, putN, leBytes, octet, Nat.div_div_eq_div_mul]

theorem put32_length (o n) : (put32 o n).length = 4 := putN_length _ _ _
theorem putF_length (o f) : (putF o f).length = 8 := putN_length _ _ _

theorem position_eq (e p) : position e p = putF (toO e) p.1 ++ putF (toO e) p.2 := by
  simp [position, u64_eq, putF]

theorem header_eq (e c) : header e c = bomByte (toO e) :: put32 (toO e) c := by
  cases e <;> simp [header, u32_eq, toO, bomByte]

/-! ## Elementary reads -/

theorem takeN_append (k : Nat) (a b : List Byte) (h : a.length = k) :
    takeN k (a ++ b) = .ok (a, b) := by
  subst h
  simp [takeN]

theorem takeN_ok {k : Nat} {bs a b : List Byte} (h : takeN k bs = .ok (a, b)) :
    bs = a ++ b ∧ a.length = k := by
  unfold takeN at h
  split at h
  · cases h
  · simp only [Except.ok.injEq, Prod.mk.injEq] at h
    obtain ⟨rfl, rfl⟩ := h
    simp; omega

theorem get32_append (o n rest) (h : n < 2 ^ 32) :
    get32 o (put32 o n ++ rest) = .ok (n, rest) := by
  simp only [get32, takeN_append 4 _ _ (put32_length o n), bind, Except.bind, pure, Except.pure]
  simp only [put32, getN_putN]
  rw [Nat.mod_eq_of_lt (by simpa using h)]

theorem get32_ok {o bs n rest} (h : get32 o bs = .ok (n, rest)) :
    bs = put32 o n ++ rest ∧ n < 2 ^ 32 := by
  unfold get32 at h
  cases ht : takeN 4 bs with
  | error e => rw [ht] at h; cases h
  | ok v =>
    obtain ⟨a, b⟩ := v
    rw [ht] at h
    simp only [bind, Except.bind, pure, Except.pure, Except.ok.injEq, Prod.mk.injEq] at h
    obtain ⟨rfl, rfl⟩ := h
    obtain ⟨rfl, hl⟩ := takeN_ok ht
    have h1 := putN_getN o a
    have h2 := getN_lt o a
    rw [hl] at h1 h2
    exact ⟨by rw [put32, h1], by simpa using h2⟩

theorem ofNat_getN_putF (o) (f : F64) : BitVec.ofNat 64 (getN o (putF o f)) = f := by
  have := f.isLt
  apply BitVec.eq_of_toNat_eq
  simp only [putF, getN_putN, BitVec.toNat_ofNat]
  omega

theorem getPt_append (o p rest) :
    getPt o (putF o p.1 ++ putF o p.2 ++ rest) = .ok (p, rest) := by
  have hl : (putF o p.1 ++ putF o p.2).length = 16 := by simp [putF_length]
  simp only [getPt, takeN_append 16 _ _ hl, bind, Except.bind, pure, Except.pure]
  rw [List.take_left' (putF_length o p.1), List.drop_left' (putF_length o p.1)]
  simp [ofNat_getN_putF]

theorem putF_ofNat_getN (o) (bs : List Byte) (h : bs.length = 8) :
    putF o (BitVec.ofNat 64 (getN o bs)) = bs := by
  have h1 := putN_getN o bs
  have h2 := getN_lt o bs
  rw [h] at h1 h2
  unfold putF
  rw [BitVec.toNat_ofNat, Nat.mod_eq_of_lt (by simpa using h2), h1]

theorem getPt_ok {o bs p rest} (h : getPt o bs = .ok (p, rest)) :
    bs = (putF o p.1 ++ putF o p.2) ++ rest := by
  unfold getPt at h
  cases ht : takeN 16 bs with
  | error e => rw [ht] at h; cases h
  | ok v =>
    obtain ⟨a, b⟩ := v
    rw [ht] at h
    simp only [bind, Except.bind, pure, Except.pure, Except.ok.injEq, Prod.mk.injEq] at h
    obtain ⟨rfl, rfl⟩ := h
    obtain ⟨rfl, hl⟩ := takeN_ok ht
    rw [putF_ofNat_getN o (a.take 8) (by simp [hl]), putF_ofNat_getN o (a.drop 8) (by simp [hl])]
    simp

/-! ## Decoders and what they read -/

/-- `d` reads exactly the byte strings related to values by `R`. -/
def Reads {α : Type} (d : Dec α) (R : α → List Byte → Prop) : Prop :=
  ∀ bs x rest, d bs = .ok (x, rest) ↔ ∃ u, bs = u ++ rest ∧ R x u

theorem bind_ok {α β : Type} {x : Except Err α} {f : α → Except Err β} {b : β} :
    (x >>= f) = .ok b ↔ ∃ a, x = .ok a ∧ f a = .ok b := by
  cases x with
  | error e => simp [bind, Except.bind]
  | ok a => simp [bind, Except.bind]

theorem pure_ok {α : Type} {a b : α} : (pure a : Except Err α) = .ok b ↔ a = b := by
  simp [pure, Except.pure]

theorem reads_getPt (e : Endian) :
    Reads (getPt (toO e)) (fun p u => u = position e p) := by
  intro bs p rest
  constructor
  · intro h; exact ⟨_, getPt_ok h, (position_eq e p).symm⟩
  · rintro ⟨u, rfl, rfl⟩
    rw [position_eq]; exact getPt_append _ _ _

theorem byteOrderType_append (e : Endian) (t : Nat) (h : t < 2 ^ 32) (rest) :
    byteOrderType (header e t ++ rest) = .ok ((toO e, t), rest) := by
  rw [header_eq]
  cases e <;> simp [byteOrderType, toO, bomByte, get32_append _ _ _ h, bind, Except.bind, pure, Except.pure]

theorem byteOrderType_ok {bs o t rest} (h : byteOrderType bs = .ok ((o, t), rest)) :
    bs = header (ofO o) t ++ rest ∧ t < 2 ^ 32 := by
  unfold byteOrderType at h
  split at h
  · cases h
  · rename_i b tl
    split at h
    · rename_i hb
      simp only [bind_ok, pure_ok, Prod.exists, Prod.mk.injEq] at h
      obtain ⟨n, r, h1, ⟨rfl, rfl⟩, rfl⟩ := h
      obtain ⟨rfl, h3⟩ := get32_ok h1
      exact ⟨by simp [header_eq, ofO, toO, bomByte, hb], h3⟩
    · split at h
      · rename_i hb
        simp only [bind_ok, pure_ok, Prod.exists, Prod.mk.injEq] at h
        obtain ⟨n, r, h1, ⟨rfl, rfl⟩, rfl⟩ := h
        obtain ⟨rfl, h3⟩ := get32_ok h1
        exact ⟨by simp [header_eq, ofO, toO, bomByte, hb], h3⟩
      · cases h

theorem readN_ok {α : Type} {d : Dec α} {R : α → List Byte → Prop} {n : Nat}
    (hd : Reads d R) {bs xs rest} :
    readN d n bs = .ok (xs, rest) ↔
      ∃ ms : List (α × List Byte), ms.length = n ∧ ms.map (·.1) = xs ∧
        bs = ms.flatMap (·.2) ++ rest ∧ ∀ m ∈ ms, R m.1 m.2 := by
  induction n generalizing bs xs rest with
  | zero =>
    simp only [readN, Except.ok.injEq, Prod.mk.injEq]
    constructor
    · rintro ⟨rfl, rfl⟩; exact ⟨[], by simp⟩
    · rintro ⟨ms, h1, rfl, rfl, -⟩
      rw [List.length_eq_zero_iff] at h1
      subst h1; simp
  | succ n ih =>
    simp only [readN, bind_ok, pure_ok, Prod.exists, Prod.mk.injEq]
    constructor
    · rintro ⟨x, b1, h1, ys, b2, h2, rfl, rfl⟩
      obtain ⟨u, rfl, hu⟩ := (hd _ _ _).1 h1
      obtain ⟨ms, hn, rfl, rfl, hm⟩ := ih.1 h2
      refine ⟨(x, u) :: ms, by simp [hn], by simp, by simp, ?_⟩
      intro m hm'
      rcases List.mem_cons.1 hm' with rfl | h
      · exact hu
      · exact hm m h
    · rintro ⟨ms, hn, rfl, rfl, hm⟩
      cases ms with
      | nil => simp at hn
      | cons m ms =>
        refine ⟨m.1, ms.flatMap (·.2) ++ rest, ?_, ms.map (·.1), rest, ?_, by simp, rfl⟩
        · exact (hd _ _ _).2 ⟨m.2, by simp, hm m (by simp)⟩
        · exact ih.2 ⟨ms, by simpa using hn, rfl, rfl, fun m' h' => hm m' (by simp [h'])⟩

theorem reads_counted {α : Type} {d : Dec α} {R : α → List Byte → Prop} (hd : Reads d R)
    (e : Endian) :
    Reads (counted (toO e) d) (fun xs u => ∃ ms : List (α × List Byte), fits ms ∧
      ms.map (·.1) = xs ∧ u = u32 e ms.length ++ ms.flatMap (·.2) ∧ ∀ m ∈ ms, R m.1 m.2) := by
  intro bs xs rest
  simp only [counted, bind_ok, Prod.exists]
  constructor
  · rintro ⟨n, b, h1, h2⟩
    obtain ⟨rfl, hn⟩ := get32_ok h1
    obtain ⟨ms, rfl, rfl, rfl, hm⟩ := (readN_ok hd).1 h2
    exact ⟨u32 e ms.length ++ ms.flatMap (·.2), by simp [u32_eq], ms, hn, rfl, rfl, hm⟩
  · rintro ⟨u, rfl, ms, hf, rfl, rfl, hm⟩
    refine ⟨ms.length, ms.flatMap (·.2) ++ rest, ?_, ?_⟩
    · rw [u32_eq, List.append_assoc]; exact get32_append _ _ _ hf
    · exact (readN_ok hd).2 ⟨ms, rfl, rfl, rfl, hm⟩

theorem reads_congr {α : Type} {d : Dec α} {R S : α → List Byte → Prop} (hd : Reads d R)
    (h : ∀ x u, R x u ↔ S x u) : Reads d S := by
  intro bs x rest
  rw [hd bs x rest]
  simp [h]

/-- A list of value/bytes pairs related by a function is determined by the values. -/
theorem pairs_of_fun {α : Type} (f : α → List Byte) (ms : List (α × List Byte))
    (h : ∀ m ∈ ms, m.2 = f m.1) :
    ms.flatMap (·.2) = (ms.map (·.1)).flatMap f := by
  induction ms with
  | nil => rfl
  | cons m ms ih =>
    simp only [List.flatMap_cons, List.map_cons]
    rw [h m (by simp), ih (fun m' h' => h m' (by simp [h']))]

theorem reads_counted_fun {α : Type} {d : Dec α} {f : α → List Byte}
    (hd : Reads d (fun x u => u = f x)) (e : Endian) :
    Reads (counted (toO e) d) (fun xs u => fits xs ∧ u = u32 e xs.length ++ xs.flatMap f) := by
  refine reads_congr (reads_counted hd e) ?_
  intro xs u
  constructor
  · rintro ⟨ms, h1, rfl, rfl, h2⟩
    refine ⟨by simpa [fits] using h1, ?_⟩
    rw [pairs_of_fun f ms h2]; simp
  · rintro ⟨h1, rfl⟩
    refine ⟨xs.map (fun x => (x, f x)), by simpa [fits] using h1, by simp [Function.comp_def], ?_, by simp⟩
    simp [List.flatMap_map]

theorem reads_lineString (e : Endian) :
    Reads (lineString (toO e)) (fun ps u => fits ps ∧ u = positions e ps) :=
  reads_counted_fun (reads_getPt e) e

theorem reads_member {α : Type} {t : Nat} (ht : t < 2 ^ 32) {d : Order → Dec α}
    {R : Endian → α → List Byte → Prop} (hd : ∀ e, Reads (d (toO e)) (R e)) :
    Reads (member t d) (fun x u => ∃ e v, u = header e t ++ v ∧ R e x v) := by
  intro bs x rest
  simp only [member, bind_ok, Prod.exists]
  constructor
  · rintro ⟨o, t', b, h1, h2⟩
    split at h2
    · rename_i ht'; subst ht'
      obtain ⟨rfl, -⟩ := byteOrderType_ok h1
      obtain ⟨v, rfl, hv⟩ := (hd (ofO o) _ _ _).1 (by simpa using h2)
      exact ⟨header (ofO o) t' ++ v, by simp, ofO o, v, rfl, hv⟩
    · cases h2
  · rintro ⟨u, rfl, e, v, rfl, hv⟩
    refine ⟨toO e, t, v ++ rest, ?_, ?_⟩
    · rw [List.append_assoc]; exact byteOrderType_append e t ht _
    · rw [if_pos rfl]; exact (hd e _ _ _).2 ⟨v, rfl, hv⟩

theorem reads_multiPoint (e : Endian) :
    Reads (multiPoint (toO e)) (fun ps u => ∃ ms : List (Endian × Pt F64), fits ms ∧
      ms.map (·.2) = ps ∧
      u = u32 e ms.length ++ ms.flatMap (fun m => header m.1 1 ++ position m.1 m.2)) := by
  have h0 : Reads (member tPoint getPt)
      (fun x u => ∃ e v, u = header e tPoint ++ v ∧ v = position e x) :=
    reads_member (by decide) reads_getPt
  refine reads_congr (reads_counted h0 e) ?_
  intro ps u
  constructor
  · rintro ⟨ms, h1, rfl, rfl, h2⟩
    have : ∃ ms' : List (Endian × Pt F64), ms'.map (·.2) = ms.map (·.1) ∧
        ms'.flatMap (fun m => header m.1 1 ++ position m.1 m.2) = ms.flatMap (·.2) := by
      clear h1
      induction ms with
      | nil => exact ⟨[], rfl, rfl⟩
      | cons m ms ih =>
        obtain ⟨ms', h3, h4⟩ := ih (fun m' h' => h2 m' (by simp [h']))
        obtain ⟨e', v, h5, rfl⟩ := h2 m (by simp)
        exact ⟨(e', m.1) :: ms', by simp [h3], by simp [h4, h5, tPoint]⟩
    obtain ⟨ms', h3, h4⟩ := this
    have hl : ms'.length = ms.length := by simpa using congrArg List.length h3
    exact ⟨ms', by simpa [fits, hl] using h1, h3, by rw [h4, hl]⟩
  · rintro ⟨ms, h1, rfl, rfl⟩
    refine ⟨ms.map (fun m => (m.2, header m.1 1 ++ position m.1 m.2)), by simpa [fits] using h1,
      by simp [Function.comp_def], by simp [List.flatMap_map], ?_⟩
    intro m hm
    obtain ⟨m', -, rfl⟩ := List.mem_map.1 hm
    exact ⟨m'.1, _, rfl, rfl⟩

theorem reads_multiLineString (e : Endian) :
    Reads (multiLineString (toO e)) (fun ls u => ∃ ms : List (Endian × List (Pt F64)), fits ms ∧
      (∀ m ∈ ms, fits m.2) ∧ ms.map (·.2) = ls ∧
      u = u32 e ms.length ++ ms.flatMap (fun m => header m.1 2 ++ positions m.1 m.2)) := by
  have h0 : Reads (member tLineString lineString)
      (fun x u => ∃ e v, u = header e tLineString ++ v ∧ (fits x ∧ v = positions e x)) :=
    reads_member (by decide) reads_lineString
  refine reads_congr (reads_counted h0 e) ?_
  intro ps u
  constructor
  · rintro ⟨ms, h1, rfl, rfl, h2⟩
    have : ∃ ms' : List (Endian × List (Pt F64)), (∀ m ∈ ms', fits m.2) ∧
        ms'.map (·.2) = ms.map (·.1) ∧
        ms'.flatMap (fun m => header m.1 2 ++ positions m.1 m.2) = ms.flatMap (·.2) := by
      clear h1
      induction ms with
      | nil => exact ⟨[], by simp, rfl, rfl⟩
      | cons m ms ih =>
        obtain ⟨ms', h6, h3, h4⟩ := ih (fun m' h' => h2 m' (by simp [h']))
        obtain ⟨e', v, h5, hf, rfl⟩ := h2 m (by simp)
        refine ⟨(e', m.1) :: ms', ?_, by simp [h3], by simp [h4, h5, tLineString]⟩
        intro m' hm'
        rcases List.mem_cons.1 hm' with rfl | h
        · exact hf
        · exact h6 _ h
    obtain ⟨ms', h6, h3, h4⟩ := this
    have hl : ms'.length = ms.length := by simpa using congrArg List.length h3
    exact ⟨ms', by simpa [fits, hl] using h1, h6, h3, by rw [h4, hl]⟩
  · rintro ⟨ms, h1, h6, rfl, rfl⟩
    refine ⟨ms.map (fun m => (m.2, header m.1 2 ++ positions m.1 m.2)), by simpa [fits] using h1,
      by simp [Function.comp_def], by simp [List.flatMap_map], ?_⟩
    intro m hm
    obtain ⟨m', hm', rfl⟩ := List.mem_map.1 hm
    exact ⟨m'.1, _, rfl, h6 _ hm', rfl⟩

/-! ### Rings -/

theorem stripClosing_eq (r : List (Pt F64)) : stripClosing r = openRing r := by
  match r with
  | [] => rfl
  | [a] => simp [stripClosing, openRing]
  | a :: b :: t =>
    have h : (a :: b :: t).getLast? = some ((b :: t).getLast (by simp)) := by
      simp [List.getLast?_eq_some_getLast]
    simp only [stripClosing, List.head?_cons, h, openRing, samePoint]
    simp

theorem reads_linearRing (e : Endian) :
    Reads (linearRing (toO e)) (fun r u => ∃ raw, fits raw ∧ openRing raw = r ∧ u = positions e raw) := by
  intro bs r rest
  simp only [linearRing, bind_ok, pure_ok, Prod.exists, Prod.mk.injEq]
  have h0 := reads_lineString e
  unfold lineString at h0
  constructor
  · rintro ⟨raw, b, h1, rfl, rfl⟩
    obtain ⟨u, rfl, hf, rfl⟩ := (h0 _ _ _).1 h1
    exact ⟨_, rfl, raw, hf, (stripClosing_eq raw).symm, rfl⟩
  · rintro ⟨u, rfl, raw, hf, rfl, rfl⟩
    exact ⟨raw, rest, (h0 _ _ _).2 ⟨_, rfl, hf, rfl⟩, stripClosing_eq raw, rfl⟩

theorem reads_polygon (e : Endian) :
    Reads (polygon (toO e)) (fun rs u => ∃ raws : List (List (Pt F64)), fits raws ∧
      (∀ r ∈ raws, fits r) ∧ raws.map openRing = rs ∧
      u = u32 e raws.length ++ raws.flatMap (positions e)) := by
  refine reads_congr (reads_counted (reads_linearRing e) e) ?_
  intro rs u
  constructor
  · rintro ⟨ms, h1, rfl, rfl, h2⟩
    have : ∃ raws : List (List (Pt F64)), (∀ r ∈ raws, fits r) ∧
        raws.map openRing = ms.map (·.1) ∧ raws.flatMap (positions e) = ms.flatMap (·.2) := by
      clear h1
      induction ms with
      | nil => exact ⟨[], by simp, rfl, rfl⟩
      | cons m ms ih =>
        obtain ⟨ms', h6, h3, h4⟩ := ih (fun m' h' => h2 m' (by simp [h']))
        obtain ⟨raw, hf, h5, h7⟩ := h2 m (by simp)
        refine ⟨raw :: ms', ?_, by simp [h3, h5], by simp [h4, h7]⟩
        intro m' hm'
        rcases List.mem_cons.1 hm' with rfl | h
        · exact hf
        · exact h6 _ h
    obtain ⟨raws, h6, h3, h4⟩ := this
    have hl : raws.length = ms.length := by simpa using congrArg List.length h3
    exact ⟨raws, by simpa [fits, hl] using h1, h6, h3, by rw [h4, hl]⟩
  · rintro ⟨raws, h1, h6, rfl, rfl⟩
    refine ⟨raws.map (fun r => (openRing r, positions e r)), by simpa [fits] using h1,
      by simp [Function.comp_def], by simp [List.flatMap_map], ?_⟩
    intro m hm
    obtain ⟨r, hr, rfl⟩ := List.mem_map.1 hm
    exact ⟨r, h6 r hr, rfl, rfl⟩

theorem reads_multiPolygon (e : Endian) :
    Reads (multiPolygon (toO e)) (fun ps u => ∃ ms : List (Endian × List (List (Pt F64))),
      fits ms ∧ (∀ m ∈ ms, fits m.2) ∧ (∀ m ∈ ms, ∀ r ∈ m.2, fits r) ∧
      ms.map (fun m => m.2.map openRing) = ps ∧
      u = u32 e ms.length ++ ms.flatMap (fun m =>
        header m.1 3 ++ (u32 m.1 m.2.length ++ m.2.flatMap (positions m.1)))) := by
  have h0 := reads_member (t := tPolygon) (by decide) reads_polygon
  refine reads_congr (reads_counted h0 e) ?_
  intro ps u
  constructor
  · rintro ⟨ms, h1, rfl, rfl, h2⟩
    have : ∃ ms' : List (Endian × List (List (Pt F64))), (∀ m ∈ ms', fits m.2) ∧
        (∀ m ∈ ms', ∀ r ∈ m.2, fits r) ∧
        ms'.map (fun m => m.2.map openRing) = ms.map (·.1) ∧
        ms'.flatMap (fun m => header m.1 3 ++ (u32 m.1 m.2.length ++ m.2.flatMap (positions m.1)))
          = ms.flatMap (·.2) := by
      clear h1
      induction ms with
      | nil => exact ⟨[], by simp, by simp, rfl, rfl⟩
      | cons m ms ih =>
        obtain ⟨ms', h6, h8, h3, h4⟩ := ih (fun m' h' => h2 m' (by simp [h']))
        obtain ⟨e', v, h5, raws, hf, hf', h9, rfl⟩ := h2 m (by simp)
        refine ⟨(e', raws) :: ms', ?_, ?_, by simp [h3, h9], by simp [h4, h5, tPolygon]⟩
        · intro m' hm'
          rcases List.mem_cons.1 hm' with rfl | h
          · exact hf
          · exact h6 _ h
        · intro m' hm'
          rcases List.mem_cons.1 hm' with rfl | h
          · exact hf'
          · exact h8 _ h
    obtain ⟨ms', h6, h8, h3, h4⟩ := this
    have hl : ms'.length = ms.length := by simpa using congrArg List.length h3
    exact ⟨ms', by simpa [fits, hl] using h1, h6, h8, h3, by rw [h4, hl]⟩
  · rintro ⟨ms, h1, h6, h8, rfl, rfl⟩
    refine ⟨ms.map (fun m => (m.2.map openRing,
        header m.1 3 ++ (u32 m.1 m.2.length ++ m.2.flatMap (positions m.1)))),
      by simpa [fits] using h1, by simp [Function.comp_def], by simp [List.flatMap_map], ?_⟩
    intro m hm
    obtain ⟨m', hm', rfl⟩ := List.mem_map.1 hm
    exact ⟨m'.1, _, rfl, m'.2, h6 _ hm', h8 _ hm', rfl, rfl⟩

/-! ### Whole records -/

/-- One record with bounded nesting, as read inside a collection or at top level. -/
def record (unk : Nat → Err) (fuel : Nat) : Dec (Geom F64) := fun bs => do
  let ((o, t), rest) ← byteOrderType bs
  body unk (collection fuel) o t rest

theorem decode_eq_record (bs) : decode bs = record .unknownType bs.length bs := rfl

theorem collection_succ (fuel o) :
    collection (fuel + 1) o = counted o (record .invalidType fuel) := rfl

theorem record_sound_of {unk fuel bs g rest}
    (hcol : ∀ e b gs r, collection fuel (toO e) b = .ok (gs, r) →
      ∃ ms : List (Geom F64 × List Byte), fits ms ∧ ms.map (·.1) = gs ∧
        b = (u32 e ms.length ++ ms.flatMap (·.2)) ++ r ∧ ∀ m ∈ ms, Wire m.1 m.2)
    (h : record unk fuel bs = .ok (g, rest)) :
    ∃ u, bs = u ++ rest ∧ Wire g u := by
  simp only [record, bind_ok, Prod.exists] at h
  obtain ⟨o, t, b, h1, h2⟩ := h
  obtain ⟨rfl, -⟩ := byteOrderType_ok h1
  obtain ⟨e, rfl⟩ : ∃ e, o = toO e := ⟨ofO o, by simp⟩
  simp only [ofO_toO]
  unfold body at h2
  split at h2
  · rename_i ht; subst ht
    simp only [bind_ok, pure_ok, Prod.exists, Prod.mk.injEq] at h2
    obtain ⟨x, y, b', h3, rfl, rfl⟩ := h2
    obtain ⟨u, rfl, rfl⟩ := (reads_getPt e _ _ _).1 h3
    exact ⟨_, (List.append_assoc _ _ _).symm, .point e _⟩
  split at h2
  · rename_i ht; subst ht
    simp only [bind_ok, pure_ok, Prod.exists, Prod.mk.injEq] at h2
    obtain ⟨p, b', h3, rfl, rfl⟩ := h2
    obtain ⟨u, rfl, hf, rfl⟩ := (reads_lineString e _ _ _).1 h3
    exact ⟨_, (List.append_assoc _ _ _).symm, .lineString e p hf⟩
  split at h2
  · rename_i ht; subst ht
    simp only [bind_ok, pure_ok, Prod.exists, Prod.mk.injEq] at h2
    obtain ⟨p, b', h3, rfl, rfl⟩ := h2
    obtain ⟨u, rfl, raws, hf, hf', rfl, rfl⟩ := (reads_polygon e _ _ _).1 h3
    exact ⟨_, (List.append_assoc _ _ _).symm, .polygon e raws hf hf'⟩
  split at h2
  · rename_i ht; subst ht
    simp only [bind_ok, pure_ok, Prod.exists, Prod.mk.injEq] at h2
    obtain ⟨p, b', h3, rfl, rfl⟩ := h2
    obtain ⟨u, rfl, ms, hf, rfl, rfl⟩ := (reads_multiPoint e _ _ _).1 h3
    exact ⟨_, (List.append_assoc _ _ _).symm, .multiPoint e ms hf⟩
  split at h2
  · rename_i ht; subst ht
    simp only [bind_ok, pure_ok, Prod.exists, Prod.mk.injEq] at h2
    obtain ⟨p, b', h3, rfl, rfl⟩ := h2
    obtain ⟨u, rfl, ms, hf, hf', rfl, rfl⟩ := (reads_multiLineString e _ _ _).1 h3
    exact ⟨_, (List.append_assoc _ _ _).symm, .multiLineString e ms hf hf'⟩
  split at h2
  · rename_i ht; subst ht
    simp only [bind_ok, pure_ok, Prod.exists, Prod.mk.injEq] at h2
    obtain ⟨p, b', h3, rfl, rfl⟩ := h2
    obtain ⟨u, rfl, ms, hf, hf', hf'', rfl, rfl⟩ := (reads_multiPolygon e _ _ _).1 h3
    exact ⟨_, (List.append_assoc _ _ _).symm, .multiPolygon e ms hf hf' hf''⟩
  split at h2
  · rename_i ht; subst ht
    simp only [bind_ok, pure_ok, Prod.exists, Prod.mk.injEq] at h2
    obtain ⟨p, b', h3, rfl, rfl⟩ := h2
    obtain ⟨ms, hf, rfl, rfl, hm⟩ := hcol _ _ _ _ h3
    exact ⟨_, (List.append_assoc _ _ _).symm, .collection e ms hf hm⟩
  · cases h2

theorem record_sound {unk fuel bs g rest} (h : record unk fuel bs = .ok (g, rest)) :
    ∃ u, bs = u ++ rest ∧ Wire g u := by
  induction fuel generalizing unk bs g rest with
  | zero =>
    refine record_sound_of ?_ h
    intro e b gs r h'
    cases h'
  | succ fuel ih =>
    refine record_sound_of ?_ h
    intro e b gs r h'
    simp only [collection_succ, counted, bind_ok, Prod.exists] at h'
    obtain ⟨n, b'', h3, h4⟩ := h'
    obtain ⟨rfl, hn⟩ := get32_ok h3
    have key : ∀ n b xs r, readN (record .invalidType fuel) n b = .ok (xs, r) →
        ∃ ms : List (Geom F64 × List Byte), ms.length = n ∧ ms.map (·.1) = xs ∧
          b = ms.flatMap (·.2) ++ r ∧ ∀ m ∈ ms, Wire m.1 m.2 := by
      intro n
      induction n with
      | zero =>
        intro b xs r h
        simp only [readN, Except.ok.injEq, Prod.mk.injEq] at h
        obtain ⟨rfl, rfl⟩ := h
        exact ⟨[], by simp⟩
      | succ n ihn =>
        intro b xs r h
        simp only [readN, bind_ok, pure_ok, Prod.exists, Prod.mk.injEq] at h
        obtain ⟨x, b1, h1, ys, b2, h2, rfl, rfl⟩ := h
        obtain ⟨u, rfl, hu⟩ := ih h1
        obtain ⟨ms, hn, rfl, rfl, hm⟩ := ihn _ _ _ h2
        refine ⟨(x, u) :: ms, by simp [hn], by simp, by simp, ?_⟩
        intro m hm'
        rcases List.mem_cons.1 hm' with rfl | h
        · exact hu
        · exact hm m h
    obtain ⟨ms, rfl, rfl, rfl, hm⟩ := key _ _ _ _ h4
    exact ⟨ms, hn, rfl, by simp [u32_eq], hm⟩

theorem record_complete {g u} (h : Wire g u) :
    ∀ unk fuel rest, u.length ≤ fuel → record unk fuel (u ++ rest) = .ok (g, rest) := by
  induction h with
  | point e p =>
    intro unk fuel rest _
    simp only [record, List.append_assoc, byteOrderType_append e 1 (by decide), bind, Except.bind]
    simp [body, tPoint, (reads_getPt e _ _ _).2 ⟨_, rfl, rfl⟩, bind, Except.bind, pure, Except.pure]
  | lineString e ps h =>
    intro unk fuel rest _
    simp only [record, List.append_assoc, byteOrderType_append e 2 (by decide), bind, Except.bind]
    simp [body, tPoint, tLineString, (reads_lineString e _ _ _).2 ⟨_, rfl, h, rfl⟩,
      bind, Except.bind, pure, Except.pure]
  | polygon e rs h hr =>
    intro unk fuel rest _
    simp only [record]
    rw [List.append_assoc, byteOrderType_append e 3 (by decide)]
    simp [body, tPoint, tLineString, tPolygon,
      (reads_polygon e _ _ rest).2 ⟨_, rfl, rs, h, hr, rfl, rfl⟩,
      bind, Except.bind, pure, Except.pure, -List.append_assoc]
  | multiPoint e ms h =>
    intro unk fuel rest _
    simp only [record]
    rw [List.append_assoc, byteOrderType_append e 4 (by decide)]
    simp [body, tPoint, tLineString, tPolygon, tMultiPoint,
      (reads_multiPoint e _ _ rest).2 ⟨_, rfl, ms, h, rfl, rfl⟩,
      bind, Except.bind, pure, Except.pure, -List.append_assoc]
  | multiLineString e ms h hm =>
    intro unk fuel rest _
    simp only [record]
    rw [List.append_assoc, byteOrderType_append e 5 (by decide)]
    simp [body, tPoint, tLineString, tPolygon, tMultiPoint, tMultiLineString,
      (reads_multiLineString e _ _ rest).2 ⟨_, rfl, ms, h, hm, rfl, rfl⟩,
      bind, Except.bind, pure, Except.pure, -List.append_assoc]
  | multiPolygon e ms h hm hr =>
    intro unk fuel rest _
    simp only [record]
    rw [List.append_assoc, byteOrderType_append e 6 (by decide)]
    simp [body, tPoint, tLineString, tPolygon, tMultiPoint, tMultiLineString, tMultiPolygon,
      (reads_multiPolygon e _ _ rest).2 ⟨_, rfl, ms, h, hm, hr, rfl, rfl⟩,
      bind, Except.bind, pure, Except.pure, -List.append_assoc]
  | collection e ms h hm ih =>
    intro unk fuel rest hfuel
    cases fuel with
    | zero => simp [header] at hfuel
    | succ fuel =>
      simp only [record]
      rw [List.append_assoc, byteOrderType_append e 7 (by decide)]
      have key : ∀ ms : List (Geom F64 × List Byte),
          (∀ m ∈ ms, ∀ unk fuel rest, m.2.length ≤ fuel →
            record unk fuel (m.2 ++ rest) = .ok (m.1, rest)) →
          (ms.flatMap (·.2)).length ≤ fuel →
          readN (record .invalidType fuel) ms.length (ms.flatMap (·.2) ++ rest)
            = .ok (ms.map (·.1), rest) := by
        intro ms
        induction ms with
        | nil => intro _ _; rfl
        | cons m ms ihm =>
          intro h1 h2
          simp only [List.flatMap_cons, List.length_append] at h2
          simp only [List.flatMap_cons, List.length_cons, readN, List.append_assoc,
            h1 m (by simp) _ fuel _ (by omega), bind, Except.bind]
          rw [ihm (fun m' h' => h1 m' (by simp [h'])) (by omega)]
          rfl
      have hl : (ms.flatMap (·.2)).length ≤ fuel := by
        simp only [header, List.cons_append, List.length_cons, List.length_append] at hfuel
        omega
      have hc : counted (toO e) (record .invalidType fuel)
          (u32 e ms.length ++ ms.flatMap (·.2) ++ rest) = .ok (ms.map (·.1), rest) := by
        simp only [counted, u32_eq, List.append_assoc, get32_append _ _ _ h, bind, Except.bind]
        exact key ms ih hl
      simp [body, tPoint, tLineString, tPolygon, tMultiPoint, tMultiLineString, tMultiPolygon,
        tCollection, collection_succ, hc, bind, Except.bind, pure, Except.pure, -List.append_assoc]

/-- The reader accepts exactly the well-formed records. -/
theorem decode_iff (bs g rest) :
    decode bs = .ok (g, rest) ↔ ∃ u, bs = u ++ rest ∧ Wire g u := by
  constructor
  · intro h; exact record_sound (by rw [← decode_eq_record]; exact h)
  · rintro ⟨u, rfl, h⟩
    rw [decode_eq_record]
    exact record_complete h _ _ _ (by simp)

end Verif.Wkb
