import Verif.Lemmas.Sweep
import Verif.Lemmas.Shapes
import Verif.Props.Planar
import Verif.Props.Shapes

set_option linter.unusedSectionVars false

namespace Verif.Intersect
open Verif.Planar Verif.Spec.Planar Verif.Spec.Intersect
open Verif.Shapes (lineContainsPoint)
open Verif.KdTree (Box)

section Field
variable {K : Type} [Field K] [LinearOrder K] [IsStrictOrderedRing K]

/-- What the loop does with one segment. -/
inductive Act where
  | border
  | skip
  | count
  deriving DecidableEq

def act (peq : Pt K → Pt K → Bool) (l : Line K) (pt : Pt K) (seg : Line K) : Act :=
  if areLinesColinear l seg then
    if lineContainsPoint seg pt then .border else .skip
  else
    let r := segmentIntersect l seg
    if !r.2 then .skip
    else if peq r.1 pt then .border
    else if peq seg.1 r.1 then if seg.2.2 > pt.2 then .skip else .count
    else if peq seg.2 r.1 then if seg.1.2 > pt.2 then .skip else .count
    else .count

theorem rayLoop_cons (peq : Pt K → Pt K → Bool) (ib : Bool) (segs : List (Line K)) (l : Line K)
    (pt : Pt K) (i : Nat) (is : List Nat) (c : Nat) :
    rayLoop peq ib segs l pt (i :: is) c =
      match act peq l pt (segAt segs i) with
      | .border => .inl ib
      | .skip => rayLoop peq ib segs l pt is c
      | .count => rayLoop peq ib segs l pt is (c + 1) := by
  rw [rayLoop, act]
  simp only []
  by_cases h1 : areLinesColinear l (segAt segs i) = true
  · rw [if_pos h1, if_pos h1]
    by_cases h2 : lineContainsPoint (segAt segs i) pt = true
    · rw [if_pos h2, if_pos h2]
    · rw [if_neg h2, if_neg h2]
  · rw [if_neg h1, if_neg h1]
    by_cases h2 : (!(segmentIntersect l (segAt segs i)).2) = true
    · rw [if_pos h2, if_pos h2]
    · rw [if_neg h2, if_neg h2]
      by_cases h3 : peq (segmentIntersect l (segAt segs i)).1 pt = true
      · rw [if_pos h3, if_pos h3]
      · rw [if_neg h3, if_neg h3]
        by_cases h4 : peq (segAt segs i).1 (segmentIntersect l (segAt segs i)).1 = true
        · rw [if_pos h4, if_pos h4]
          by_cases h5 : (segAt segs i).2.2 > pt.2
          · rw [if_pos h5, if_pos h5]
          · rw [if_neg h5, if_neg h5]
        · rw [if_neg h4, if_neg h4]
          by_cases h5 : peq (segAt segs i).2 (segmentIntersect l (segAt segs i)).1 = true
          · rw [if_pos h5, if_pos h5]
            by_cases h6 : (segAt segs i).1.2 > pt.2
            · rw [if_pos h6, if_pos h6]
            · rw [if_neg h6, if_neg h6]
          · rw [if_neg h5, if_neg h5]

/-- A point on a horizontal line at most `x` and at least `m`. -/
theorem onSegment_h {m x z y : K} (h1 : m ≤ z) (h2 : z ≤ x) (hm : m < x) :
    OnSegment (z, y) (m, y) (x, y) := by
  refine ⟨(z - m) / (x - m), div_nonneg (by linarith) (by linarith), ?_, ?_⟩
  · rw [div_le_one (by linarith)]; linarith
  · have : x - m ≠ 0 := by linarith
    apply Prod.ext
    · simp only []; field_simp; ring
    · simp

theorem onSegment_box {p a b : Pt K} (h : OnSegment p a b) :
    min a.1 b.1 ≤ p.1 ∧ p.1 ≤ max a.1 b.1 ∧ min a.2 b.2 ≤ p.2 ∧ p.2 ≤ max a.2 b.2 := by
  have := (Props.C81_box_partial a b p).1.1 ((Props.C81_box_partial a b p).2.1 h)
  exact this

theorem act_spec (peq : Pt K → Pt K → Bool) (hpeq : ∀ a b, peq a b = true ↔ a = b)
    (m : K) (pt : Pt K) (seg : Line K) (hm : m < pt.1)
    (ha : m ≤ seg.1.1) (hb : m ≤ seg.2.1) :
    (OnSegment pt seg.1 seg.2 → act peq ((m, pt.2), pt) pt seg = .border) ∧
    (¬ OnSegment pt seg.1 seg.2 → CrossesRay pt seg → act peq ((m, pt.2), pt) pt seg = .count) ∧
    (¬ OnSegment pt seg.1 seg.2 → ¬ CrossesRay pt seg →
      act peq ((m, pt.2), pt) pt seg = .skip) := by
  obtain ⟨px, py⟩ := pt
  obtain ⟨a, b⟩ := seg
  simp only at hm ha hb ⊢
  have hcol := Props.C74_exact_partial (m, py) (px, py) a b
  have hpar : Parallel (m, py) (px, py) a b ↔ a.2 = b.2 := by
    unfold Parallel
    simp only [sub_self, zero_mul, mul_eq_zero]
    constructor
    · rintro (h | h) <;> linarith
    · intro h; right; linarith
  have hint := fun p => segmentIntersect_iff (m, py) (px, py) a b p
  have hcont := (Props.C81_box_partial a b (px, py))
  by_cases hh : a.2 = b.2
  · have hnc : ¬ CrossesRay (px, py) (a, b) := by
      rintro ⟨h, _⟩
      simp only [hh] at h
      tauto
    have hno : (segmentIntersect ((m, py), (px, py)) (a, b)).2 = false := by
      cases hc : (segmentIntersect ((m, py), (px, py)) (a, b)).2 with
      | false => rfl
      | true => exact absurd (hpar.2 hh) ((hint _).1 (Prod.ext rfl hc)).1
    refine ⟨fun hon => ?_, fun _ h => absurd h hnc, fun hoff _ => ?_⟩
    · have hbox := onSegment_box hon
      have hy : a.2 = py := by
        have h1 := hbox.2.2.1
        have h2 := hbox.2.2.2
        rw [hh, min_self] at h1
        rw [hh, max_self] at h2
        simp only at h1 h2
        rw [hh]; exact le_antisymm h1 h2
      have hc : areLinesColinear ((m, py), (px, py)) (a, b) = true := by
        rw [hcol]
        refine ⟨hpar.2 hh, ?_⟩
        unfold InBox
        simp only [min_self, max_self, min_eq_left hm.le, max_eq_right hm.le]
        rcases le_total a.1 b.1 with h | h
        · left
          have := hbox.1
          rw [min_eq_left h] at this
          exact ⟨ha, this, hy.ge, hy.le⟩
        · right
          have := hbox.1
          rw [min_eq_right h] at this
          exact ⟨hb, this, by rw [← hh]; exact hy.ge, by rw [← hh]; exact hy.le⟩
      unfold act
      rw [if_pos hc, if_pos (hcont.2.1 hon)]
    · unfold act
      by_cases hc : areLinesColinear ((m, py), (px, py)) (a, b) = true
      · rw [if_pos hc, if_neg]
        intro h
        exact hoff ((hcont.2.2 (Or.inr hh)).1 h)
      · rw [if_neg hc]
        simp only []
        rw [if_pos (by rw [hno]; rfl)]
  · have hc : ¬ areLinesColinear ((m, py), (px, py)) (a, b) = true := by
      rw [hcol, hpar]; exact fun h => hh h.1
    unfold act
    rw [if_neg hc]
    simp only []
    -- the meeting point
    have hmeet : ∀ p, OnSegment p a b → p.2 = py → p.1 ≤ px →
        segmentIntersect ((m, py), (px, py)) (a, b) = (p, true) := by
      intro p hp hy hx
      rw [hint]
      refine ⟨fun h => hh (hpar.1 h), ?_, hp⟩
      have : p = (p.1, py) := Prod.ext rfl hy
      rw [this]
      refine onSegment_h ?_ hx hm
      exact (le_min ha hb).trans (onSegment_box hp).1
    refine ⟨fun hon => ?_, fun hoff hcr => ?_, fun hoff hncr => ?_⟩
    · have := hmeet _ hon rfl (le_refl _)
      rw [this, if_neg (by simp), if_pos ((hpeq _ _).2 rfl)]
    · obtain ⟨hud, x, hx, hon⟩ := hcr
      simp only at hud hx
      have := hmeet _ hon rfl hx.le
      rw [this, if_neg (by simp)]
      simp only []
      rw [if_neg (by rw [hpeq]; intro h; rw [Prod.mk.injEq] at h; linarith [h.1])]
      by_cases h1 : peq a (x, py) = true
      · rw [if_pos h1, if_neg]
        have h2 := (hpeq _ _).1 h1
        rw [h2] at hud
        simp only [lt_irrefl, false_iff, not_not] at hud
        exact not_lt.2 hud.le
      · rw [if_neg h1]
        by_cases h2 : peq b (x, py) = true
        · rw [if_pos h2, if_neg]
          have h3 := (hpeq _ _).1 h2
          rw [h3] at hud
          simp only [lt_irrefl, not_false_iff, iff_true] at hud
          exact not_lt.2 hud.le
        · rw [if_neg h2]
    · by_cases hs : (segmentIntersect ((m, py), (px, py)) (a, b)).2 = true
      · obtain ⟨p, hp⟩ : ∃ p, segmentIntersect ((m, py), (px, py)) (a, b) = (p, true) :=
          ⟨_, Prod.ext rfl hs⟩
        obtain ⟨_, hl, hon⟩ := (hint p).1 hp
        have hbx := onSegment_box hl
        simp only [min_self, max_self, max_eq_right hm.le] at hbx
        have hpy : p.2 = py := le_antisymm hbx.2.2.2 hbx.2.2.1
        have hpx : p.1 < px := by
          refine lt_of_le_of_ne hbx.2.1 fun h => hoff ?_
          have : p = (px, py) := Prod.ext h hpy
          rwa [← this]
        have hud : ¬ (a.2 < py ↔ ¬ b.2 < py) := by
          intro h
          refine hncr ⟨h, p.1, hpx, ?_⟩
          have : p = (p.1, py) := Prod.ext rfl hpy
          rwa [← this]
        rw [hp, if_neg (by simp)]
        simp only []
        rw [if_neg (by rw [hpeq]; intro h; rw [h] at hpx; exact lt_irrefl _ hpx)]
        by_cases h1 : peq a p = true
        · have h2 := (hpeq _ _).1 h1
          rw [if_pos h1, if_pos]
          have ha2 : a.2 = py := by rw [h2]; exact hpy
          rw [ha2] at hud hh
          simp only [lt_irrefl, false_iff, not_not] at hud
          exact lt_of_le_of_ne (not_lt.1 hud) hh
        · rw [if_neg h1]
          by_cases h2 : peq b p = true
          · have h3 := (hpeq _ _).1 h2
            rw [if_pos h2, if_pos]
            have hb2 : b.2 = py := by rw [h3]; exact hpy
            rw [hb2] at hud hh
            simp only [lt_irrefl, not_false_iff, iff_true] at hud
            exact lt_of_le_of_ne (not_lt.1 hud) (Ne.symm hh)
          · exfalso
            obtain ⟨t, t0, t1, ht⟩ := hon
            have hne0 : t ≠ 0 := by
              rintro rfl
              exact h1 ((hpeq _ _).2 (by rw [ht]; simp))
            have hne1 : t ≠ 1 := by
              rintro rfl
              exact h2 ((hpeq _ _).2 (by rw [ht]; simp))
            have t0' : 0 < t := lt_of_le_of_ne t0 (Ne.symm hne0)
            have t1' : t < 1 := lt_of_le_of_ne t1 hne1
            have hy : py = a.2 + t * (b.2 - a.2) := by rw [← hpy, ht]
            rcases lt_or_gt_of_ne hh with h | h
            · exact hud ⟨fun _ => by nlinarith, fun _ => by nlinarith⟩
            · exact hud ⟨fun h' => by nlinarith, fun h' => by
                exfalso; apply h'; nlinarith⟩
      · rw [if_pos (by simpa using hs)]

open Classical in
theorem rayLoop_spec (peq : Pt K → Pt K → Bool) (hpeq : ∀ a b, peq a b = true ↔ a = b)
    (ib : Bool) (segs : List (Line K)) (m : K) (pt : Pt K) (hm : m < pt.1) (is : List Nat) :
    ∀ c, (∀ i ∈ is, m ≤ (segAt segs i).1.1 ∧ m ≤ (segAt segs i).2.1) →
    rayLoop peq ib segs ((m, pt.2), pt) pt is c =
      if ∃ i ∈ is, OnSegment pt (segAt segs i).1 (segAt segs i).2 then .inl ib
      else .inr (c + is.countP (fun i => decide (CrossesRay pt (segAt segs i)))) := by
  induction is with
  | nil => intro c _; simp [rayLoop]
  | cons i is ih =>
    intro c hbd
    obtain ⟨h1, h2, h3⟩ := act_spec peq hpeq m pt (segAt segs i) hm (hbd i (by simp)).1
      (hbd i (by simp)).2
    have hbd' : ∀ j ∈ is, m ≤ (segAt segs j).1.1 ∧ m ≤ (segAt segs j).2.1 :=
      fun j hj => hbd j (by simp [hj])
    rw [rayLoop_cons]
    by_cases hon : OnSegment pt (segAt segs i).1 (segAt segs i).2
    · rw [h1 hon, if_pos ⟨i, by simp, hon⟩]
    · have hex : (∃ j ∈ i :: is, OnSegment pt (segAt segs j).1 (segAt segs j).2) ↔
          ∃ j ∈ is, OnSegment pt (segAt segs j).1 (segAt segs j).2 := by
        constructor
        · rintro ⟨j, hj, h⟩
          rcases List.mem_cons.1 hj with rfl | hj
          · exact absurd h hon
          · exact ⟨j, hj, h⟩
        · rintro ⟨j, hj, h⟩; exact ⟨j, by simp [hj], h⟩
      simp only [hex]
      by_cases hcr : CrossesRay pt (segAt segs i)
      · rw [h2 hon hcr, List.countP_cons_of_pos (by simpa using hcr)]
        simp only []
        rw [ih _ hbd', Nat.add_assoc, Nat.add_comm 1]
      · rw [h3 hon hcr, List.countP_cons_of_neg (by simpa using hcr)]
        simp only []
        rw [ih _ hbd']

/-! ### The box of a ring -/

theorem ringBox_fold (segs : List (Line K)) : ∀ e : Box K,
    let e' := segs.foldl (fun e s => (e.add s.1).add s.2) e
    (e'.minx ≤ e.minx ∧ e.maxx ≤ e'.maxx ∧ e'.miny ≤ e.miny ∧ e.maxy ≤ e'.maxy) ∧
    ∀ s ∈ segs, ∀ p ∈ [s.1, s.2],
      e'.minx ≤ p.1 ∧ p.1 ≤ e'.maxx ∧ e'.miny ≤ p.2 ∧ p.2 ≤ e'.maxy := by
  induction segs with
  | nil => intro e; simp
  | cons s segs ih =>
    intro e
    simp only [List.foldl_cons]
    obtain ⟨⟨h1, h2, h3, h4⟩, h5⟩ := ih ((e.add s.1).add s.2)
    simp only [Box.add] at h1 h2 h3 h4 h5 ⊢
    simp only [le_min_iff, max_le_iff] at h1 h2 h3 h4
    refine ⟨⟨h1.2.2, h2.2.2, h3.2.2, h4.2.2⟩, ?_⟩
    intro t ht p hp
    rcases List.mem_cons.1 ht with rfl | ht
    · simp only [List.mem_cons, List.not_mem_nil, or_false] at hp
      rcases hp with rfl | rfl
      · exact ⟨h1.2.1, h2.2.1, h3.2.1, h4.2.1⟩
      · exact ⟨h1.1, h2.1, h3.1, h4.1⟩
    · exact h5 t ht p hp

theorem ringBox_seg {segs : List (Line K)} {s : Line K} (hs : s ∈ segs) {p : Pt K}
    (hp : OnSegment p s.1 s.2) : (ringBox segs).minx ≤ p.1 ∧ p.1 ≤ (ringBox segs).maxx ∧
      (ringBox segs).miny ≤ p.2 ∧ p.2 ≤ (ringBox segs).maxy := by
  have h := (ringBox_fold segs ⟨0, 0, 0, 0⟩).2 s hs
  have h1 := h s.1 (by simp)
  have h2 := h s.2 (by simp)
  have hb := onSegment_box hp
  exact ⟨(le_min h1.1 h2.1).trans hb.1, hb.2.1.trans (max_le h1.2.1 h2.2.1),
    (le_min h1.2.2.1 h2.2.2.1).trans hb.2.2.1, hb.2.2.2.trans (max_le h1.2.2.2 h2.2.2.2)⟩

theorem onSegment_ends (a b : Pt K) : OnSegment a a b ∧ OnSegment b a b :=
  ⟨⟨0, le_refl _, zero_le_one, by simp⟩, ⟨1, zero_le_one, le_refl _, by simp⟩⟩

/-! ### Parity around a closed chain -/

theorem chain_parity (A : Pt K → Bool) (ps : List (Pt K)) : ∀ lp,
    (ringSegsFrom lp ps).countP (fun s => A s.1 != A s.2) % 2 =
      if A lp = A (ps.getLastD lp) then 0 else 1 := by
  induction ps with
  | nil => intro lp; simp [ringSegsFrom]
  | cons p ps ih =>
    intro lp
    rw [ringSegsFrom, List.countP_cons]
    have h := ih p
    have hl : (p :: ps).getLastD lp = ps.getLastD p := by
      cases ps <;> simp [List.getLastD]
    rw [hl]
    generalize (ringSegsFrom p ps).countP (fun s => A s.1 != A s.2) = n at h ⊢
    generalize A (ps.getLastD p) = q at h ⊢
    cases hlp : A lp <;> cases hp : A p <;> cases q <;>
      simp [hp, hlp] at h ⊢ <;> omega

theorem ring_parity (A : Pt K → Bool) (ps : List (Pt K)) :
    (ringSegs ps).countP (fun s => A s.1 != A s.2) % 2 = 0 := by
  unfold ringSegs
  cases h : ps.getLast? with
  | none => simp
  | some lp =>
    simp only []
    rw [chain_parity]
    have : ps.getLastD lp = lp := by rw [List.getLastD_eq_getLast?, h]; rfl
    rw [this]
    simp

theorem segAt_mem {segs : List (Line K)} {i : Nat} (h : i < segs.length) :
    segs[i]? = some (segAt segs i) := by
  simp [segAt, List.getD, List.getElem?_eq_getElem h]

theorem segs_map (segs : List (Line K)) : (List.range segs.length).map (segAt segs) = segs := by
  apply List.ext_getElem?
  intro i
  by_cases h : i < segs.length
  · rw [List.getElem?_map, List.getElem?_range h]
    simp [segAt_mem h]
  · rw [List.getElem?_eq_none (by simpa using h), List.getElem?_eq_none (by simpa using h)]

open Classical in
theorem ringContains_spec (peq : Pt K → Pt K → Bool) (hpeq : ∀ a b, peq a b = true ↔ a = b)
    (ib : Bool) (pts : List (Pt K)) (results : List Nat) (pt : Pt K)
    (hr : Candidates (ringSegs pts) (ray (ringSegs pts) pt) results) :
    ringContains peq ib (ringSegs pts) results pt =
      if OnBorder (ringSegs pts) pt then ib else decide (InsideEvenOdd (ringSegs pts) pt) := by
  generalize hsegs : ringSegs pts = segs at hr
  obtain ⟨hnd, hlt, hall⟩ := hr
  unfold ringContains
  have hends : ∀ s ∈ segs, ∀ p ∈ [s.1, s.2], OnSegment p s.1 s.2 := by
    intro s _ p hp
    simp only [List.mem_cons, List.not_mem_nil, or_false] at hp
    rcases hp with rfl | rfl
    · exact (onSegment_ends _ _).1
    · exact (onSegment_ends _ _).2
  by_cases hbox : boxContains (ringBox segs) pt = true
  · rw [if_neg (by simp [hbox])]
    simp only [boxContains, Bool.and_eq_true, decide_eq_true_eq] at hbox
    obtain ⟨⟨⟨b1, b2⟩, b3⟩, b4⟩ := hbox
    have hm : (ringBox segs).minx - 1 < pt.1 := by linarith
    have hbd : ∀ i ∈ results, (ringBox segs).minx - 1 ≤ (segAt segs i).1.1 ∧
        (ringBox segs).minx - 1 ≤ (segAt segs i).2.1 := by
      intro i hi
      have hmem : segAt segs i ∈ segs := List.mem_of_getElem? (segAt_mem (hlt i hi))
      have h1 := (ringBox_seg hmem (onSegment_ends _ _).1).1
      have h2 := (ringBox_seg hmem (onSegment_ends _ _).2).1
      constructor <;> linarith
    show (match rayLoop peq ib segs ((_, pt.2), pt) pt results 0 with
      | .inl b => b | .inr count => decide (count % 2 ≠ 0)) = _
    rw [rayLoop_spec peq hpeq ib segs _ pt hm results 0 hbd]
    have hex : (∃ i ∈ results, OnSegment pt (segAt segs i).1 (segAt segs i).2) ↔
        OnBorder segs pt := by
      constructor
      · rintro ⟨i, hi, h⟩
        exact ⟨_, List.mem_of_getElem? (segAt_mem (hlt i hi)), h⟩
      · rintro ⟨s, hs, h⟩
        obtain ⟨i, hi⟩ := List.getElem?_of_mem hs
        refine ⟨i, hall i s hi pt ⟨?_, h⟩, by rwa [segAt_of hi]⟩
        exact (onSegment_ends _ _).2
    simp only [hex]
    by_cases hon : OnBorder segs pt
    · rw [if_pos hon, if_pos hon]
    · rw [if_neg hon, if_neg hon]
      simp only [Nat.zero_add]
      have hcount : results.countP (fun i => decide (CrossesRay pt (segAt segs i))) =
          segs.countP (fun s => decide (CrossesRay pt s)) := by
        conv_rhs => rw [← segs_map segs, List.countP_map]
        rw [List.countP_eq_length_filter, List.countP_eq_length_filter]
        apply List.Perm.length_eq
        rw [List.perm_ext_iff_of_nodup (hnd.filter _) (List.nodup_range.filter _)]
        intro i
        simp only [List.mem_filter, List.mem_range, decide_eq_true_eq, Function.comp]
        constructor
        · rintro ⟨h1, h2⟩; exact ⟨hlt i h1, h2⟩
        · rintro ⟨h1, h2⟩
          refine ⟨?_, h2⟩
          obtain ⟨_, x, hx, hon'⟩ := h2
          refine hall i _ (segAt_mem h1) (x, pt.2) ⟨?_, hon'⟩
          have hmem : segAt segs i ∈ segs := List.mem_of_getElem? (segAt_mem h1)
          have := (ringBox_seg hmem hon').1
          exact onSegment_h (by simp only at this; linarith) hx.le hm
      rw [hcount]
      unfold InsideEvenOdd
      congr 1
      rw [eq_iff_iff]
      omega
  · rw [if_pos (by simpa using hbox)]
    have hoff : ¬ OnBorder segs pt := by
      rintro ⟨s, hs, h⟩
      apply hbox
      have := ringBox_seg hs h
      simp [boxContains, this]
    rw [if_neg hoff]
    symm
    rw [decide_eq_false_iff_not]
    unfold InsideEvenOdd
    by_cases hx : (ringBox segs).maxx < pt.1
    · have hc : segs.countP (fun s => decide (CrossesRay pt s)) =
          segs.countP (fun s => decide (s.1.2 < pt.2) != decide (s.2.2 < pt.2)) := by
        apply List.countP_congr
        intro s hs
        simp only [decide_eq_true_eq, bne_iff_ne, ne_eq, decide_eq_decide]
        constructor
        · rintro ⟨h, _⟩; tauto
        · intro h
          refine ⟨by tauto, ?_⟩
          have hne : s.2.2 - s.1.2 ≠ 0 := by
            intro h'
            have : s.2.2 = s.1.2 := by linarith
            rw [this] at h
            exact h Iff.rfl
          have hbt := seg_of_between (x := s.1.2) (y := s.2.2) (z := pt.2) hne
            (by split <;> by_contra h' <;> push Not at h' <;> apply h <;>
                  constructor <;> intro _ <;> linarith)
            (by split <;> by_contra h' <;> push Not at h' <;> apply h <;>
                  constructor <;> intro _ <;> linarith)
          have hon : OnSegment (s.1.1 + (pt.2 - s.1.2) / (s.2.2 - s.1.2) * (s.2.1 - s.1.1), pt.2)
              s.1 s.2 := by
            refine ⟨_, hbt.1, hbt.2, ?_⟩
            apply Prod.ext
            · rfl
            · simp only []; field_simp; ring
          exact ⟨_, lt_of_le_of_lt (ringBox_seg hs hon).2.1 hx, hon⟩
      rw [hc, ← hsegs, ring_parity (fun p => decide (p.2 < pt.2))]
      simp
    · have hc : segs.countP (fun s => decide (CrossesRay pt s)) = 0 := by
        rw [List.countP_eq_zero]
        intro s hs
        simp only [decide_eq_true_eq]
        rintro ⟨hud, x, hxx, hon⟩
        have h1 := ringBox_seg hs (onSegment_ends s.1 s.2).1
        have h2 := ringBox_seg hs (onSegment_ends s.1 s.2).2
        have h3 := ringBox_seg hs hon
        simp only at h3
        apply hbox
        simp only [boxContains, Bool.and_eq_true, decide_eq_true_eq]
        exact ⟨⟨⟨by linarith, not_lt.1 hx⟩, h3.2.2.1⟩, h3.2.2.2⟩
      rw [hc]
      simp

end Field

end Verif.Intersect
