import Verif.Lemmas.ClipLine

/-! Helper lemmas for clipping: the walk along the line. -/

set_option linter.unusedSectionVars false

namespace Verif.Lemmas.Clip
open Verif.Clip Verif.Spec.Clip Verif.Spec.Planar
open Verif.Planar (Line segmentIntersect)
open Verif.KdTree (Box)
open Verif.Intersect (boxContains)
open Verif.Simplify (Ctx)

variable {K : Type} [Field K] [LinearOrder K] [IsStrictOrderedRing K]
variable {peq : Pt K → Pt K → Bool}

/-- The pieces of the line so far. -/
def P (s : St K) : List (Pt K × Pt K) := (linesOf s).flatMap pieces

theorem onSegment_at {p q : Pt K} {t : K} (h0 : 0 ≤ t) (h1 : t ≤ 1) : OnSegment (at' p q t) p q :=
  ⟨t, h0, h1, rfl⟩

/-- A point between two others of the segment is on the piece between them. -/
theorem onSegment_piece {p q : Pt K} {u t v : K} (hut : u ≤ t) (htv : t ≤ v) (huv : u < v) :
    OnSegment (at' p q t) (at' p q u) (at' p q v) := by
  have hne : v - u ≠ 0 := by linarith
  refine ⟨(t - u) / (v - u), div_nonneg (by linarith) (by linarith), ?_, ?_⟩
  · rw [div_le_one (by linarith)]; linarith
  · unfold at'
    apply Prod.ext <;> simp only <;> field_simp <;> ring

theorem partOf_at {p q : Pt K} {u v : K} (h0 : 0 ≤ u) (huv : u ≤ v) (h1 : v ≤ 1) :
    PartOf (at' p q u) (at' p q v) p q := ⟨u, v, h0, huv, h1, rfl, rfl⟩

/-- The two clipped ends. -/
theorem covers {e : Box K} {p q : Pt K} {a b : Pt K} {u v : K} (ha : a = at' p q u)
    (hb : b = at' p q v) (huv : u < v)
    (hu : ∀ r, 0 ≤ r → r < u → ¬ Inside e (at' p q r))
    (hv : ∀ r, r ≤ 1 → v < r → ¬ Inside e (at' p q r))
    {x : Pt K} (hx : OnSegment x p q) (hi : Inside e x) : OnSegment x a b := by
  obtain ⟨t, t0, t1, rfl⟩ := hx
  subst ha hb
  refine onSegment_piece ?_ ?_ huv
  · by_contra h; exact hu t t0 (not_le.1 h) hi
  · by_contra h; exact hv t t1 (not_le.1 h) hi

theorem step_all {e : Box K} (he : Proper e) (hpeq : ∀ a b, peq a b = true ↔ a = b)
    {s : St K} {p q : Pt K} (hI : Inv e s p) : ∃ s', step peq e s p q = some s' ∧ Inv e s' q ∧
      (∀ l ∈ linesOf s', ∀ v ∈ l, (∃ l0 ∈ linesOf s, v ∈ l0) ∨ (Inside e v ∧ OnSegment v p q)) ∧
      (P s' = P s ∨ ∃ a b, P s' = P s ++ [(a, b)] ∧ PartOf a b p q) ∧
      ((∀ c, Corner e c → ¬ OnSegment c p q) → ∀ x y, x ≠ y → OnSegment x p q → OnSegment y p q →
        Inside e x → Inside e y → ∃ ab ∈ P s', OnSegment x ab.1 ab.2) ∧
      ((Inside e p → StrictlyInside e p) → (∀ l ∈ s.mls, 2 ≤ l.length) →
        ∀ l ∈ s'.mls, 2 ≤ l.length) ∧
      ((Inside e q → StrictlyInside e q) → p ≠ q →
        ∀ ab ∈ P s', ab ∈ P s ∨ ab.1 ≠ ab.2) := by
  obtain ⟨hin, hlast, hnil⟩ := hI
  have two : ∀ {x y : Pt K}, x ≠ y → OnSegment x p q → OnSegment y p q → Inside e x → Inside e y →
      p ≠ q ∧ ∃ t r : K, 0 ≤ t ∧ t < r ∧ r ≤ 1 ∧ Inside e (at' p q t) ∧ Inside e (at' p q r) := by
    rintro x y hne ⟨t, t0, t1, rfl⟩ ⟨r, r0, r1, rfl⟩ hx hy
    have htr : t ≠ r := by rintro rfl; exact hne rfl
    refine ⟨?_, ?_⟩
    · rintro rfl; apply hne; simp
    · rcases lt_or_gt_of_ne htr with h | h
      · exact ⟨t, r, t0, h, r1, hx, hy⟩
      · exact ⟨r, t, r0, h, t1, hy, hx⟩
  cases hs : s.lptIsIn
  · have hp : ¬ Inside e p := by rw [← hin, hs]; simp
    have hcls := hnil hs
    by_cases hq : Inside e q
    · -- entering
      have hentry := entry he (q := q) hp zero_le_one (by rw [at_one]; exact hq)
      obtain ⟨t, t0, t1, ti, tfirst, E, hE, hpar, hon⟩ := hentry
      have hall : at' p q t ∈ allHits e p q := mem_allHits.2 ⟨E, hE, hpar, hon, onSegment_at t0.le t1⟩
      have hne := (hit_param he hall).1
      rcases step_ft (peq := peq) he hpeq hs hq hcls with ⟨h, h2⟩ | ⟨u, u0, u1, hu, hmin, h⟩
      · exact absurd h2 (hits_ne_nil hpeq hall)
      · refine ⟨_, h, ⟨?_, ?_, ?_⟩, ?_, ?_, ?_, ?_, ?_⟩
        · simp [hq]
        · simp
        · simp
        · intro l hl v hv
          simp only [linesOf, List.mem_append, List.mem_singleton] at hl
          rcases hl with hl | rfl
          · exact Or.inl ⟨l, by simp [linesOf, hl], hv⟩
          · right
            simp only [List.mem_cons, List.not_mem_nil, or_false] at hv
            rcases hv with rfl | rfl
            · obtain ⟨-, w, -, -, -, hw, -⟩ := hit_param he (hits_sub hu)
              exact ⟨hw, onSegment_at u0 u1⟩
            · refine ⟨hq, ?_⟩
              have := onSegment_at (p := p) (q := v) zero_le_one (le_refl (1 : K))
              rwa [at_one] at this
        · right
          refine ⟨at' p q u, q, ?_, ?_⟩
          · simp [P, linesOf, hcls, pieces]
          · have := partOf_at (p := p) (q := q) u0 u1 (le_refl (1 : K))
            rwa [at_one] at this
        · intro hc x y hxy hx hy hix hiy
          rw [hits_all hpeq he hc] at hmin hu
          have hut : u ≤ t := hmin t hall
          have htu : t ≤ u := by
            by_contra hcon
            obtain ⟨-, -, -, -, -, hw, -⟩ := hit_param he hu
            exact tfirst u (not_le.1 hcon) hw
          obtain rfl : u = t := le_antisymm hut htu
          have hu1 : u < 1 := by
            obtain ⟨-, a, b, a0, ab, b1, ia, ib⟩ := two hxy hx hy hix hiy
            by_contra hcon
            exact tfirst a (by linarith) ia
          refine ⟨(at' p q u, q), by simp [P, linesOf, pieces], ?_⟩
          exact covers rfl (at_one p q).symm hu1 (fun r _ hr => tfirst r hr)
            (fun r h1 h2 => absurd h1 (not_le.2 h2)) hx hix
        · intro _ h2; exact h2
        · intro hst _ ab hab
          have hP : ab ∈ P s ∨ ab = (at' p q u, q) := by
            simpa [P, linesOf, hcls, pieces] using hab
          refine hP.imp_right ?_
          rintro rfl hcon
          simp only at hcon
          obtain ⟨-, -, -, -, -, -, hn⟩ := hit_param he (hits_sub hu)
          rw [hcon] at hn
          exact hn (hst hq)
    · -- outside
      rcases step_ff (peq := peq) he hpeq (p := p) hs hq with ⟨h, h2⟩ | ⟨u, v, u0, uv, v1, hu, hv, h⟩
      · refine ⟨_, h, ⟨?_, ?_, ?_⟩, ?_, ?_, ?_, ?_, ?_⟩
        · simp [hq]
        · simp
        · intro _; exact hcls
        · intro l hl v hv; exact Or.inl ⟨l, hl, hv⟩
        · exact Or.inl rfl
        · intro hc x y hxy hx hy hix hiy
          exfalso
          obtain ⟨hne, a, b, a0, ab, b1, ia, ib⟩ := two hxy hx hy hix hiy
          obtain ⟨t, t0, ta, ti, tfirst, E, hE, hpar, hon⟩ := entry he hp a0 ia
          obtain ⟨r, r1, br, ri, rlast, E', hE', hpar', hon'⟩ := exit he hq b1 ib
          rw [hits_all hpeq he hc] at h2
          have m1 : at' p q t ∈ allHits e p q :=
            mem_allHits.2 ⟨E, hE, hpar, hon, onSegment_at t0.le (by linarith)⟩
          have m2 : at' p q r ∈ allHits e p q :=
            mem_allHits.2 ⟨E', hE', hpar', hon', onSegment_at (by linarith) r1.le⟩
          match hh : allHits e p q, h2 with
          | [], _ => rw [hh] at m1; simp at m1
          | [z], _ =>
            rw [hh, List.mem_singleton] at m1 m2
            have := at_inj hne (m1.trans m2.symm)
            linarith
        · intro _ h2; exact h2
        · intro _ _ ab hab; exact Or.inl hab
      · refine ⟨_, h, ⟨?_, ?_, ?_⟩, ?_, ?_, ?_, ?_, ?_⟩
        · simp [hq]
        · simp
        · intro _; exact hcls
        · intro l hl w hw
          simp only [linesOf, List.mem_append, List.mem_singleton] at hl
          rcases hl with (hl | rfl) | rfl
          · exact Or.inl ⟨l, by simp [linesOf, hl], hw⟩
          · right
            simp only [List.mem_cons, List.not_mem_nil, or_false] at hw
            rcases hw with rfl | rfl
            · obtain ⟨-, -, -, -, -, hw, -⟩ := hit_param he (hits_sub hu)
              exact ⟨hw, onSegment_at u0 (by linarith)⟩
            · obtain ⟨-, -, -, -, -, hw, -⟩ := hit_param he (hits_sub hv)
              exact ⟨hw, onSegment_at (by linarith) v1⟩
          · rw [hcls] at hw; simp at hw
        · right
          exact ⟨_, _, by simp [P, linesOf, hcls, pieces], partOf_at u0 uv.le v1⟩
        · intro hc x y hxy hx hy hix hiy
          obtain ⟨hne, a, b, a0, ab, b1, ia, ib⟩ := two hxy hx hy hix hiy
          have iu := (hit_param he (hits_sub hu)).2
          have iv := (hit_param he (hits_sub hv)).2
          obtain ⟨-, -, -, -, iu, -⟩ := iu
          obtain ⟨-, -, -, -, iv, -⟩ := iv
          refine ⟨(at' p q u, at' p q v), by simp [P, linesOf, pieces], ?_⟩
          refine covers rfl rfl uv ?_ ?_ hx hix
          · intro r _ hr hir
            exact hit_not_between he hr uv hir iv (hits_sub hu)
          · intro r _ hr hir
            exact hit_not_between he uv hr iu hir (hits_sub hv)
        · intro _ h2 l hl
          rcases List.mem_append.1 hl with hl | hl
          · exact h2 l hl
          · rw [List.mem_singleton.1 hl]; simp
        · intro _ hne ab hab
          have hP : ab ∈ P s ∨ ab = (at' p q u, at' p q v) := by
            simpa [P, linesOf, hcls, pieces] using hab
          refine hP.imp_right ?_
          rintro rfl hcon
          exact absurd (at_inj hne hcon) uv.ne
  · have hp : Inside e p := by rw [← hin, hs]
    have hl := hlast hs
    by_cases hq : Inside e q
    · -- inside
      refine ⟨_, step_tt hs hq, ⟨?_, ?_, ?_⟩, ?_, ?_, ?_, ?_, ?_⟩
      · simp [hq]
      · simp
      · simp
      · intro l hl v hv
        simp only [linesOf, List.mem_append, List.mem_singleton] at hl
        rcases hl with hl | rfl
        · exact Or.inl ⟨l, by simp [linesOf, hl], hv⟩
        · rcases List.mem_append.1 hv with hv | hv
          · exact Or.inl ⟨s.cls, by simp [linesOf], hv⟩
          · right
            rw [List.mem_singleton.1 hv]
            refine ⟨hq, ?_⟩
            have := onSegment_at (p := p) (q := q) zero_le_one (le_refl (1 : K))
            rwa [at_one] at this
      · right
        refine ⟨p, q, ?_, ?_⟩
        · simp [P, linesOf, pieces_cons_append _ hl, pieces]
        · have := partOf_at (p := p) (q := q) (le_refl (0 : K)) zero_le_one (le_refl 1)
          rwa [at_zero, at_one] at this
      · intro _ x y _ hx _ _ _
        exact ⟨(p, q), by simp [P, linesOf, pieces_cons_append _ hl], hx⟩
      · intro _ h2; exact h2
      · intro _ hne ab hab
        have hP : ab ∈ P s ∨ ab = (p, q) := by
          simpa [P, linesOf, pieces_cons_append _ hl, pieces, or_assoc] using hab
        refine hP.imp_right ?_
        rintro rfl; exact hne
    · -- leaving
      obtain ⟨r, r1, r0, ri, rlast, E', hE', hpar', hon'⟩ :=
        exit he (p := p) hq zero_le_one (by rw [at_zero]; exact hp)
      have hall : at' p q r ∈ allHits e p q :=
        mem_allHits.2 ⟨E', hE', hpar', hon', onSegment_at r0 r1.le⟩
      have hne := (hit_param he hall).1
      rcases step_tf (peq := peq) he hpeq hs hp hq hl with ⟨h, h2⟩ | ⟨u, u0, u1, hu, honly, h⟩
      · refine ⟨_, h, ⟨?_, ?_, ?_⟩, ?_, ?_, ?_, ?_, ?_⟩
        · simp [hq]
        · simp
        · simp
        · intro l hl' v hv
          simp only [linesOf, List.mem_append, List.mem_singleton] at hl'
          rcases hl' with (hl' | rfl) | rfl
          · exact Or.inl ⟨l, by simp [linesOf, hl'], hv⟩
          · exact Or.inl ⟨s.cls, by simp [linesOf], hv⟩
          · simp at hv
        · left; simp [P, linesOf, pieces]
        · intro hc x y hxy hx hy hix hiy
          exfalso
          rw [hits_all hpeq he hc] at h2
          have hr0 : r = 0 := at_inj hne ((h2 _ hall).trans (at_zero p q).symm)
          obtain ⟨-, a, b, a0, ab, b1, ia, ib⟩ := two hxy hx hy hix hiy
          exact rlast b (by linarith) ib
        · intro hstr _
          exfalso
          have hst := hstr hp
          cases hh : hits peq e (p, q) with
          | nil => exact hits_ne_nil hpeq hall hh
          | cons z l =>
            have hz : z ∈ hits peq e (p, q) := by rw [hh]; simp
            obtain ⟨-, -, -, -, -, -, hn⟩ := hit_param he (hits_sub hz)
            rw [h2 z hz] at hn
            exact hn hst
        · intro _ _ ab hab
          left
          simpa [P, linesOf, pieces] using hab
      · refine ⟨_, h, ⟨?_, ?_, ?_⟩, ?_, ?_, ?_, ?_, ?_⟩
        · simp [hq]
        · simp
        · simp
        · intro l hl' v hv
          simp only [linesOf, List.mem_append, List.mem_singleton] at hl'
          rcases hl' with (hl' | rfl) | rfl
          · exact Or.inl ⟨l, by simp [linesOf, hl'], hv⟩
          · rcases List.mem_append.1 hv with hv | hv
            · exact Or.inl ⟨s.cls, by simp [linesOf], hv⟩
            · right
              rw [List.mem_singleton.1 hv]
              obtain ⟨-, -, -, -, -, hw, -⟩ := hit_param he (hits_sub hu)
              exact ⟨hw, onSegment_at u0.le u1⟩
          · simp at hv
        · right
          refine ⟨p, at' p q u, ?_, ?_⟩
          · simp [P, linesOf, pieces_cons_append _ hl, pieces]
          · have := partOf_at (p := p) (q := q) (le_refl (0 : K)) u0.le u1
            rwa [at_zero] at this
        · intro hc x y hxy hx hy hix hiy
          refine ⟨(p, at' p q u), by simp [P, linesOf, pieces_cons_append _ hl], ?_⟩
          refine covers (at_zero p q).symm rfl u0 (fun r h1 h2 => absurd h1 (not_le.2 h2)) ?_ hx hix
          intro w _ huw hiw
          exact hit_not_between he u0 huw (by rw [at_zero]; exact hp) hiw (hits_sub hu)
        · intro _ h2 l hl'
          rcases List.mem_append.1 hl' with hl' | hl'
          · exact h2 l hl'
          · rw [List.mem_singleton.1 hl', List.length_append]
            have : s.cls ≠ [] := by
              intro hn; rw [hn] at hl; simp at hl
            have := List.length_pos_iff.2 this
            simp only [List.length_singleton]; omega
        · intro _ hne ab hab
          have hP : ab ∈ P s ∨ ab = (p, at' p q u) := by
            simpa [P, linesOf, pieces_cons_append _ hl, pieces, or_assoc] using hab
          refine hP.imp_right ?_
          rintro rfl hcon
          simp only at hcon
          have : (0 : K) = u := at_inj hne (by rw [at_zero]; exact hcon)
          exact absurd this u0.ne

theorem partsInOrder_nil (m : List (Pt K × Pt K)) : PartsInOrder [] m := by
  induction m with
  | nil => exact .nil
  | cons a m ih => exact .skip a ih

/-- The whole walk. -/
theorem loop_all {e : Box K} (he : Proper e) (hpeq : ∀ a b, peq a b = true ↔ a = b) (ctx : Ctx)
    (ps : List (Pt K)) : ∀ (n : Nat) (p : Pt K) (s : St K), Inv e s p →
    if ∃ i < ps.length, ctx (n + i) = true then loop peq ctx e n p ps s = .ctxErr
    else ∃ s', loop peq ctx e n p ps s = .ok s' ∧
      (∀ l ∈ linesOf s', ∀ v ∈ l, (∃ l0 ∈ linesOf s, v ∈ l0) ∨
        (Inside e v ∧ ∃ pq ∈ pieces (p :: ps), OnSegment v pq.1 pq.2)) ∧
      (∃ N, P s' = P s ++ N ∧ PartsInOrder N (pieces (p :: ps))) ∧
      (∀ pq ∈ pieces (p :: ps), (∀ c, Corner e c → ¬ OnSegment c pq.1 pq.2) →
        ∀ x y, x ≠ y → OnSegment x pq.1 pq.2 → OnSegment y pq.1 pq.2 →
        Inside e x → Inside e y → ∃ ab ∈ P s', OnSegment x ab.1 ab.2) ∧
      ((∀ v ∈ p :: ps, Inside e v → StrictlyInside e v) → (∀ l ∈ s.mls, 2 ≤ l.length) →
        ∀ l ∈ s'.mls, 2 ≤ l.length) ∧
      ((∀ v ∈ p :: ps, Inside e v → StrictlyInside e v) → (∀ pq ∈ pieces (p :: ps), pq.1 ≠ pq.2) →
        ∀ ab ∈ P s', ab ∈ P s ∨ ab.1 ≠ ab.2) := by
  induction ps with
  | nil =>
    intro n p s _
    rw [if_neg (by simp)]
    exact ⟨s, rfl, fun l hl v hv => Or.inl ⟨l, hl, hv⟩, ⟨[], by simp, partsInOrder_nil _⟩,
      by simp [pieces], fun _ h => h, fun _ _ ab h => Or.inl h⟩
  | cons q ps ih =>
    intro n p s hI
    by_cases h0 : ctx n = true
    · rw [if_pos ⟨0, by simp, by simpa using h0⟩]
      simp [loop, h0]
    · obtain ⟨s1, h1, hI1, hA, hB, hD, hG, hZ⟩ := step_all (peq := peq) he hpeq (q := q) hI
      have heq : loop peq ctx e n p (q :: ps) s = loop peq ctx e (n + 1) q ps s1 := by
        simp only [loop, h1, if_neg h0]
      rw [heq]
      have := ih (n + 1) q s1 hI1
      by_cases hc : ∃ i < ps.length, ctx (n + 1 + i) = true
      · rw [if_pos hc] at this
        obtain ⟨i, hi, hci⟩ := hc
        rw [if_pos ⟨i + 1, by simpa using hi, by rw [← hci]; congr 1; omega⟩]
        exact this
      · rw [if_neg hc] at this
        rw [if_neg]
        · obtain ⟨s2, h2, hA2, ⟨N, hN, hNo⟩, hD2, hG2, hZ2⟩ := this
          refine ⟨s2, h2, ?_, ?_, ?_, ?_, ?_⟩
          · intro l hl v hv
            rcases hA2 l hl v hv with ⟨l1, hl1, hv1⟩ | ⟨hi, pq, hpq, hon⟩
            · rcases hA l1 hl1 v hv1 with h | ⟨hi, hon⟩
              · exact Or.inl h
              · exact Or.inr ⟨hi, (p, q), by simp [pieces], hon⟩
            · exact Or.inr ⟨hi, pq, by simp only [pieces, List.mem_cons]; exact Or.inr hpq, hon⟩
          · rcases hB with hB | ⟨a, b, hB, hpart⟩
            · exact ⟨N, by rw [hN, hB], .skip _ hNo⟩
            · exact ⟨(a, b) :: N, by rw [hN, hB]; simp, .take hpart hNo⟩
          · intro pq hpq hcor x y hxy hx hy hix hiy
            simp only [pieces, List.mem_cons] at hpq
            rcases hpq with rfl | hpq
            · obtain ⟨ab, hab, hon⟩ := hD hcor x y hxy hx hy hix hiy
              exact ⟨ab, by rw [hN]; exact List.mem_append_left _ hab, hon⟩
            · exact hD2 pq hpq hcor x y hxy hx hy hix hiy
          · intro hv hl
            exact hG2 (fun v h => hv v (List.mem_cons_of_mem _ h)) (hG (hv p (by simp)) hl)
          · intro hv hd ab hab
            rcases hZ2 (fun v h => hv v (List.mem_cons_of_mem _ h)) (fun pq h => hd pq (by
                simp only [pieces, List.mem_cons]; exact Or.inr h)) ab hab with h | h
            · exact hZ (hv q (by simp)) (hd (p, q) (by simp [pieces])) ab h
            · exact Or.inr h
        · rintro ⟨i, hi, hci⟩
          cases i with
          | zero => exact h0 (by simpa using hci)
          | succ i =>
            exact hc ⟨i, by simpa using hi, by rw [← hci]; congr 1; omega⟩

theorem pieces_short {l : List (Pt K)} (h : ¬ 1 < l.length) : pieces l = [] := by
  match l, h with
  | [], _ => rfl
  | [_], _ => rfl
  | _ :: _ :: _, h => simp at h

/-- Everything about a clipped line. -/
theorem lineString_all {e : Box K} (he : Proper e) (hpeq : ∀ a b, peq a b = true ↔ a = b)
    (ctx : Ctx) (p q : Pt K) (ps : List (Pt K)) :
    if ∃ i < ps.length + 1, ctx i = true then
      lineString peq ctx (some e) (p :: q :: ps) = .ctxErr
    else ∃ mls, lineString peq ctx (some e) (p :: q :: ps) = .ok mls ∧
      (∀ l ∈ mls, ∀ v ∈ l, Inside e v ∧ ∃ pq ∈ pieces (p :: q :: ps), OnSegment v pq.1 pq.2) ∧
      PartsInOrder (mls.flatMap pieces) (pieces (p :: q :: ps)) ∧
      (∀ pq ∈ pieces (p :: q :: ps), (∀ c, Corner e c → ¬ OnSegment c pq.1 pq.2) →
        ∀ x y, x ≠ y → OnSegment x pq.1 pq.2 → OnSegment y pq.1 pq.2 →
        Inside e x → Inside e y → ∃ l ∈ mls, ∃ ab ∈ pieces l, OnSegment x ab.1 ab.2) ∧
      ((∀ v ∈ p :: q :: ps, Inside e v → StrictlyInside e v) → ∀ l ∈ mls, 2 ≤ l.length) ∧
      ((∀ v ∈ p :: q :: ps, Inside e v → StrictlyInside e v) →
        (∀ pq ∈ pieces (p :: q :: ps), pq.1 ≠ pq.2) → ∀ l ∈ mls, ∀ ab ∈ pieces l, ab.1 ≠ ab.2) := by
  have hI : Inv e (St.mk [] (if boxContains e p then [p] else []) (boxContains e p)) p := by
    refine ⟨boxContains_iff, ?_, ?_⟩ <;> intro h <;> simp only at h <;> simp [h]
  have := loop_all (peq := peq) he hpeq ctx (q :: ps) 0 p _ hI
  simp only [List.length_cons, Nat.zero_add] at this
  by_cases hc : ∃ i < ps.length + 1, ctx i = true
  · rw [if_pos hc] at this ⊢
    simp only [lineString, this]
  · rw [if_neg hc] at this ⊢
    obtain ⟨s', h, hA, ⟨N, hN, hNo⟩, hD, hG, hZ⟩ := this
    have hN' : P s' = N := by
      rw [hN]
      simp only [P, linesOf, List.nil_append, List.flatMap_cons, List.flatMap_nil, List.append_nil]
      split <;> simp [pieces]
    have hm : (if 1 < s'.cls.length then s'.mls ++ [s'.cls] else s'.mls).flatMap pieces = P s' := by
      unfold P linesOf
      split
      · rfl
      · rename_i hs; simp [pieces_short hs]
    refine ⟨if 1 < s'.cls.length then s'.mls ++ [s'.cls] else s'.mls,
      by simp only [lineString, h], ?_, ?_, ?_, ?_, ?_⟩
    · intro l hl v hv
      have hl' : l ∈ linesOf s' := by
        unfold linesOf
        split at hl
        · exact hl
        · exact List.mem_append_left _ hl
      rcases hA l hl' v hv with ⟨l0, hl0, hv0⟩ | h
      · simp only [linesOf, List.nil_append, List.mem_singleton] at hl0
        subst hl0
        split at hv0
        · rename_i hb
          rw [List.mem_singleton.1 hv0]
          refine ⟨boxContains_iff.1 hb, (p, q), by simp [pieces], ?_⟩
          have := onSegment_at (p := p) (q := q) (le_refl (0 : K)) zero_le_one
          rwa [at_zero] at this
        · simp at hv0
      · exact h
    · rw [hm, hN']; exact hNo
    · intro pq hpq hcor x y hxy hx hy hix hiy
      obtain ⟨ab, hab, hon⟩ := hD pq hpq hcor x y hxy hx hy hix hiy
      rw [← hm, List.mem_flatMap] at hab
      obtain ⟨l, hl, hab⟩ := hab
      exact ⟨l, hl, ab, hab, hon⟩
    · intro hv l hl
      have h2 := hG hv (by simp)
      split at hl
      · rename_i hs
        rcases List.mem_append.1 hl with hl | hl
        · exact h2 l hl
        · rw [List.mem_singleton.1 hl]; omega
      · exact h2 l hl
    · intro hv hd l hl ab hab
      have hP : ab ∈ P s' := by rw [← hm, List.mem_flatMap]; exact ⟨l, hl, hab⟩
      rcases hZ hv hd ab hP with h | h
      · exfalso
        simp only [P, linesOf, List.nil_append, List.flatMap_cons, List.flatMap_nil, List.append_nil] at h
        split at h <;> simp [pieces] at h
      · exact h

/-- For any box with ordered sides and any comparison of points, the vertices are in the box and
on the line. -/
theorem hits_sound {e : Box K} (h1 : e.minx ≤ e.maxx) (h2 : e.miny ≤ e.maxy) {p q x : Pt K}
    (hx : x ∈ hits peq e (p, q)) : Inside e x ∧ OnSegment x p q := by
  obtain ⟨E, hE, -, ⟨t, t0, t1, rfl⟩, hon⟩ := mem_allHits.1 (hits_sub hx)
  refine ⟨?_, hon⟩
  have conv : ∀ a b : K, a ≤ b → a ≤ a + t * (b - a) ∧ a + t * (b - a) ≤ b ∧
      a ≤ b + t * (a - b) ∧ b + t * (a - b) ≤ b := by
    intro a b hab
    have h := mul_nonneg t0 (sub_nonneg.2 hab)
    have h' := mul_le_mul_of_nonneg_right t1 (sub_nonneg.2 hab)
    refine ⟨?_, ?_, ?_, ?_⟩ <;> nlinarith
  obtain ⟨x1, x2, x3, x4⟩ := conv _ _ h1
  obtain ⟨y1, y2, y3, y4⟩ := conv _ _ h2
  unfold Inside
  rcases mem_edges.1 hE with rfl | rfl | rfl | rfl <;> simp only [sub_self, mul_zero, add_zero]
  · exact ⟨x1, x2, le_rfl, h2⟩
  · exact ⟨h1, le_rfl, y1, y2⟩
  · exact ⟨x3, x4, h2, le_rfl⟩
  · exact ⟨le_rfl, h1, y3, y4⟩

theorem step_sound {e : Box K} (h1 : e.minx ≤ e.maxx) (h2 : e.miny ≤ e.maxy)
    {s : St K} {p q : Pt K} (hI : Inv e s p) : ∃ s', step peq e s p q = some s' ∧ Inv e s' q ∧
      (∀ l ∈ linesOf s', ∀ v ∈ l, (∃ l0 ∈ linesOf s, v ∈ l0) ∨ (Inside e v ∧ OnSegment v p q)) := by
  obtain ⟨hin, hlast, hnil⟩ := hI
  have hh : ∀ x ∈ hits peq e (p, q), Inside e x ∧ OnSegment x p q := fun x => hits_sound h1 h2
  have hend : OnSegment q p q := by
    have := onSegment_at (p := p) (q := q) zero_le_one (le_refl (1 : K))
    rwa [at_one] at this
  unfold step
  generalize hits peq e (p, q) = H at hh
  cases hs : s.lptIsIn
  · have hcls := hnil hs
    by_cases hq : Inside e q
    · simp only [boxContains_iff.2 hq]
      refine ⟨_, rfl, ⟨by simp [hq], by simp, by simp⟩, ?_⟩
      intro l hl v hv
      simp only [linesOf, List.mem_append, List.mem_singleton] at hl
      rcases hl with hl | rfl
      · exact Or.inl ⟨l, by simp [linesOf, hl], hv⟩
      · right
        rw [List.mem_append, List.mem_singleton] at hv
        rcases hv with hv | rfl
        · match H, hh with
          | [], _ => simp [hcls] at hv
          | [a], hh =>
            simp only [hcls, List.nil_append, List.mem_singleton] at hv
            exact hv ▸ hh a (by simp)
          | a :: b :: _, hh =>
            simp only [hcls, List.nil_append, List.mem_singleton] at hv
            subst hv
            split
            · exact hh a (by simp)
            · exact hh b (by simp)
        · exact ⟨hq, hend⟩
    · simp only [bc_false hq]
      match H, hh with
      | [], _ => exact ⟨_, rfl, ⟨by simp [hq], by simp, fun _ => hcls⟩, fun l hl v hv => Or.inl ⟨l, hl, hv⟩⟩
      | [_], _ => exact ⟨_, rfl, ⟨by simp [hq], by simp, fun _ => hcls⟩, fun l hl v hv => Or.inl ⟨l, hl, hv⟩⟩
      | _ :: _ :: _ :: _, _ =>
        exact ⟨_, rfl, ⟨by simp [hq], by simp, fun _ => hcls⟩, fun l hl v hv => Or.inl ⟨l, hl, hv⟩⟩
      | [a, b], hh =>
        refine ⟨_, rfl, ⟨by simp [hq], by simp, fun _ => hcls⟩, fun l hl v hv => ?_⟩
        simp only [linesOf, List.mem_append, List.mem_singleton] at hl
        rcases hl with (hl | rfl) | rfl
        · exact Or.inl ⟨l, by simp [linesOf, hl], hv⟩
        · right
          apply hh
          split at hv <;> simp only [List.mem_cons, List.not_mem_nil, or_false] at hv ⊢ <;> tauto
        · exact Or.inl ⟨s.cls, by simp [linesOf], hv⟩
  · have hl := hlast hs
    by_cases hq : Inside e q
    · simp only [boxContains_iff.2 hq]
      refine ⟨_, rfl, ⟨by simp [hq], by simp, by simp⟩, ?_⟩
      intro l hl v hv
      simp only [linesOf, List.mem_append, List.mem_singleton] at hl
      rcases hl with hl | rfl
      · exact Or.inl ⟨l, by simp [linesOf, hl], hv⟩
      · rcases List.mem_append.1 hv with hv | hv
        · exact Or.inl ⟨s.cls, by simp [linesOf], hv⟩
        · right; rw [List.mem_singleton.1 hv]; exact ⟨hq, hend⟩
    · simp only [bc_false hq, hl]
      refine ⟨_, rfl, ⟨by simp [hq], by simp, by simp⟩, ?_⟩
      intro l hl v hv
      simp only [linesOf, List.mem_append, List.mem_singleton] at hl
      rcases hl with (hl | rfl) | rfl
      · exact Or.inl ⟨l, by simp [linesOf, hl], hv⟩
      · rcases List.mem_append.1 hv with hv | hv
        · exact Or.inl ⟨s.cls, by simp [linesOf], hv⟩
        · right; exact hh v (List.mem_of_mem_filter hv)
      · simp at hv

theorem loop_sound {e : Box K} (h1 : e.minx ≤ e.maxx) (h2 : e.miny ≤ e.maxy) (ctx : Ctx)
    (ps : List (Pt K)) : ∀ (n : Nat) (p : Pt K) (s : St K), Inv e s p →
    if ∃ i < ps.length, ctx (n + i) = true then loop peq ctx e n p ps s = .ctxErr
    else ∃ s', loop peq ctx e n p ps s = .ok s' ∧
      (∀ l ∈ linesOf s', ∀ v ∈ l, (∃ l0 ∈ linesOf s, v ∈ l0) ∨
        (Inside e v ∧ ∃ pq ∈ pieces (p :: ps), OnSegment v pq.1 pq.2)) := by
  induction ps with
  | nil =>
    intro n p s _
    rw [if_neg (by simp)]
    exact ⟨s, rfl, fun l hl v hv => Or.inl ⟨l, hl, hv⟩⟩
  | cons q ps ih =>
    intro n p s hI
    by_cases h0 : ctx n = true
    · rw [if_pos ⟨0, by simp, by simpa using h0⟩]
      simp [loop, h0]
    · obtain ⟨s1, hs1, hI1, hA⟩ := step_sound (peq := peq) h1 h2 (q := q) hI
      have heq : loop peq ctx e n p (q :: ps) s = loop peq ctx e (n + 1) q ps s1 := by
        simp only [loop, hs1, if_neg h0]
      rw [heq]
      have := ih (n + 1) q s1 hI1
      by_cases hc : ∃ i < ps.length, ctx (n + 1 + i) = true
      · rw [if_pos hc] at this
        obtain ⟨i, hi, hci⟩ := hc
        rw [if_pos ⟨i + 1, by simpa using hi, by rw [← hci]; congr 1; omega⟩]
        exact this
      · rw [if_neg hc] at this
        rw [if_neg]
        · obtain ⟨s2, hs2, hA2⟩ := this
          refine ⟨s2, hs2, ?_⟩
          intro l hl v hv
          rcases hA2 l hl v hv with ⟨l1, hl1, hv1⟩ | ⟨hi, pq, hpq, hon⟩
          · rcases hA l1 hl1 v hv1 with h | ⟨hi, hon⟩
            · exact Or.inl h
            · exact Or.inr ⟨hi, (p, q), by simp [pieces], hon⟩
          · exact Or.inr ⟨hi, pq, by simp only [pieces, List.mem_cons]; exact Or.inr hpq, hon⟩
        · rintro ⟨i, hi, hci⟩
          cases i with
          | zero => exact h0 (by simpa using hci)
          | succ i =>
            exact hc ⟨i, by simpa using hi, by rw [← hci]; congr 1; omega⟩

theorem lineString_sound {e : Box K} (h1 : e.minx ≤ e.maxx) (h2 : e.miny ≤ e.maxy)
    (ctx : Ctx) (p q : Pt K) (ps : List (Pt K)) :
    if ∃ i < ps.length + 1, ctx i = true then
      lineString peq ctx (some e) (p :: q :: ps) = .ctxErr
    else ∃ mls, lineString peq ctx (some e) (p :: q :: ps) = .ok mls ∧
      (∀ l ∈ mls, ∀ v ∈ l, Inside e v ∧ ∃ pq ∈ pieces (p :: q :: ps), OnSegment v pq.1 pq.2) := by
  have hI : Inv e (St.mk [] (if boxContains e p then [p] else []) (boxContains e p)) p := by
    refine ⟨boxContains_iff, ?_, ?_⟩ <;> intro h <;> simp only at h <;> simp [h]
  have := loop_sound (peq := peq) h1 h2 ctx (q :: ps) 0 p _ hI
  simp only [List.length_cons, Nat.zero_add] at this
  by_cases hc : ∃ i < ps.length + 1, ctx i = true
  · rw [if_pos hc] at this ⊢
    simp only [lineString, this]
  · rw [if_neg hc] at this ⊢
    obtain ⟨s', h, hA⟩ := this
    refine ⟨if 1 < s'.cls.length then s'.mls ++ [s'.cls] else s'.mls,
      by simp only [lineString, h], ?_⟩
    intro l hl v hv
    have hl' : l ∈ linesOf s' := by
      unfold linesOf
      split at hl
      · exact hl
      · exact List.mem_append_left _ hl
    rcases hA l hl' v hv with ⟨l0, hl0, hv0⟩ | h
    · simp only [linesOf, List.nil_append, List.mem_singleton] at hl0
      subst hl0
      split at hv0
      · rename_i hb
        rw [List.mem_singleton.1 hv0]
        refine ⟨boxContains_iff.1 hb, (p, q), by simp [pieces], ?_⟩
        have := onSegment_at (p := p) (q := q) (le_refl (0 : K)) zero_le_one
        rwa [at_zero] at this
      · simp at hv0
    · exact h

/-- The points kept. -/
theorem pointsLoop_eq (ctx : Ctx) (e : Box K) (ps : List (Pt K)) : ∀ (n : Nat) (acc : List (Pt K)),
    pointsLoop ctx e n ps acc = if ∃ i < ps.length, ctx (n + i) = true then .ctxErr
      else .ok (acc ++ ps.filter (fun p => decide (Inside e p))) := by
  induction ps with
  | nil => intro n acc; simp [pointsLoop]
  | cons p ps ih =>
    intro n acc
    simp only [pointsLoop]
    by_cases h0 : ctx n = true
    · rw [if_pos h0, if_pos ⟨0, by simp, by simpa using h0⟩]
    · rw [if_neg h0, ih]
      have hiff : (∃ i < ps.length, ctx (n + 1 + i) = true) ↔
          ∃ i < (p :: ps).length, ctx (n + i) = true := by
        constructor
        · rintro ⟨i, hi, h⟩
          exact ⟨i + 1, by simpa using hi, by rw [← h]; congr 1; omega⟩
        · rintro ⟨i, hi, h⟩
          cases i with
          | zero => exact absurd (by simpa using h) h0
          | succ i => exact ⟨i, by simpa using hi, by rw [← h]; congr 1; omega⟩
      simp only [hiff]
      congr 1
      by_cases hb : Inside e p
      · simp [boxContains_iff.2 hb, hb]
      · simp [bc_false hb, hb]

end Verif.Lemmas.Clip
