import Verif.Lemmas.SubSuspect
import Verif.Lemmas.Planar

/-!
# Putting a point into a subdivision (`InsertSite`)
-/

namespace Verif.Lemmas.SubInsert
open Verif.Quad Verif.Spec.Quad Verif.Lemmas.Quad Verif.Spec.Subdivision Verif.Subdivision
open Verif.Resolve Verif.Spec.Resolve Verif.Lemmas.Resolve Verif.Lemmas.SubLocate Verif.Lemmas.SubTables
open Verif.Lemmas.SubFan Verif.Lemmas.SubWalk Verif.Lemmas.SubMesh
open Verif.Lemmas.SubSuspect Verif.Spec.Planar
set_option linter.unusedSectionVars false

attribute [local irreducible] splice delete swap connectTo

variable {K : Type} [Field K] [LinearOrder K] [IsStrictOrderedRing K] {s s0 : Store (Pt K)}

/-- What the loop over the suspect edges keeps, and what is left in the end. -/
structure Keeps (yd : Bool) (f0 f1 f2 : Pt K) (z : E) (x : Pt K) (base : E) (J : Store (Pt K) → E → Nat → Prop)
    (Fin : Store (Pt K) → Prop) : Prop where
  done : ∀ s e o d td, Susp yd f0 f1 f2 z x base s e 0 o d → J s e 0 → FaceOf s (sym e) d o td →
      ¬ (Turns yd d o td ∧ containsPoint yd x o d td = true) → Fin s
  next : ∀ s e m o d td, Susp yd f0 f1 f2 z x base s e (m + 1) o d → J s e (m + 1) →
      FaceOf s (sym e) d o td →
      ¬ (Turns yd d o td ∧ containsPoint yd x o d td = true) → J s (nextLink s e) m
  swap : ∀ s e m o d td, Susp yd f0 f1 f2 z x base s e m o d → J s e m → FaceOf s (sym e) d o td →
      Turns yd d o td → containsPoint yd x o d td = true →
      J (swap s e) (lnext s (lnext s (sym e))) (m + 1)

/-- The face the new point is to be connected to. -/
structure Ready (yd : Bool) (f0 f1 f2 : Pt K) (z : E) (x : Pt K) (s0 : Store (Pt K)) (e : Nat → E) (c : Nat → Pt K)
    (m : Nat) : Prop where
  mesh : Mesh yd f0 f1 f2 s0 z (fun y => ∃ i ≤ m, y = e i)
  poly : Poly s0 e c m
  conn : Connected s0 z (e 0)
  pos : 0 < m
  le : m ≤ 3
  ne : x ≠ f0 ∧ x ≠ f1 ∧ x ≠ f2
  res : ∀ j < m, resolveStep yd x (c j) (c 0) (c (j + 1)) = .a
  turn : ∀ i < m, Turns yd (c i) (c (i + 1)) x
  last : Turns yd (c m) (c 0) x

theorem fan_star {e : Nat → E} {c : Nat → Pt K} {m : Nat} {x : Pt K} (hf : Fan s0 s e c x m m) :
    ∀ i ≤ m, s.next^[i] (sym (spoke s0 0)) = sym (spoke s0 i) := by
  have hi := Reached.inv hf.reached
  intro i
  induction i with
  | zero => intro _; rfl
  | succ i ih =>
    intro h
    rw [Function.iterate_succ_apply', ih (by omega)]
    have := next_lnext hi (spoke s0 (i + 1))
    rwa [hf.back i (by omega)] at this

/-- After connecting the new point the loop can begin. -/
theorem first_susp {yd : Bool} {f0 f1 f2 : Pt K} {z : E} {e : Nat → E} {c : Nat → Pt K} {m : Nat} {x : Pt K}
    (h : Ready yd f0 f1 f2 z x s0 e c m) (hf : Fan s0 s e c x m m) :
    Susp yd f0 f1 f2 z x (spoke s0 0) s (e m) m (c m) (c 0) ∧
      (∀ y, Connected s0 z y → Connected s z y) ∧ ∀ p, Vertex s z p ↔ Vertex s0 z p ∨ p = x := by
  obtain ⟨h1, h2, h3, _⟩ := mesh_fan h.mesh h.poly h.conn hf h.turn h.last
  obtain ⟨_, f2'⟩ := fan_face h.poly hf h.turn h.last
  have hi := Reached.inv hf.reached
  have hi0 := Reached.inv h.mesh.reached
  have conn : ∀ i ≤ m, Connected s0 z (e i) := by
    intro i
    induction i with
    | zero => intro _; exact h.conn
    | succ i ih =>
      intro hi
      rw [← h.poly.next i (by omega)]
      exact lnext_connected hi0 (ih (by omega))
  have st := fan_star hf
  have l2 : lnext s (lnext s (e m)) = sym (spoke s0 m) := by rw [hf.close, hf.first]
  refine ⟨⟨h1, h2 _ (conn m le_rfl), f2', h.last, spoke_primal 0, (hf.v_new 0 (Nat.zero_le _)).2, ?_, ?_⟩, h2, h3⟩
  · rw [st m le_rfl, l2]
  · intro i hm
    rw [st i hm.le, l2]
    intro h'
    have := sym_spoke_inj h'
    omega

/-- Connecting the point and looking after the suspect edges. -/
theorem insert_at {yd : Bool} {f0 f1 f2 : Pt K} {z : E} {e : Nat → E} {c : Nat → Pt K} {m : Nat} {x : Pt K}
    (h : Ready yd f0 f1 f2 z x s0 e c m) (J : Store (Pt K) → E → Nat → Prop) (Fin : Store (Pt K) → Prop)
    (hK : Keeps yd f0 f1 f2 z x (spoke s0 0) J Fin)
    (hJ : ∀ s, Fan s0 s e c x m m → Susp yd f0 f1 f2 z x (spoke s0 0) s (e m) m (c m) (c 0) →
      (∀ y, Connected s0 z y → Connected s z y) → J s (e m) m) (sd : Subdiv K) :
    ∃ s2, insertAt yd sd s0 (e 0) x = some (true, { sd with store := s2 }) ∧
      Triangulated yd f0 f1 f2 s2 z ∧ (∀ p, Vertex s2 z p ↔ Vertex s0 z p ∨ p = x) ∧ Fin s2 := by
  have hne : ∀ i ≤ m, x ≠ c i := by
    intro i hi
    rcases Nat.lt_or_ge i m with hlt | hge
    · exact (turns_ne (h.turn i hlt)).2.2.symm
    · obtain rfl : i = m := by omega
      exact (turns_ne h.last).2.2.symm
  obtain ⟨s1, g1, g2⟩ := insertIn_fan (yd := yd) h.mesh.reached h.mesh.agree h.poly h.pos (by have := h.le; omega)
    hne h.res
  obtain ⟨k1, k2, k3⟩ := first_susp h g2
  obtain ⟨s2, l1, l2, l3, l4⟩ := suspect_loop h.ne J Fin hK.done hK.next hK.swap (4 * s1.size + 4) s1 (e m) m
    _ _ k1 (hJ s1 g2 k1 k2) (by have := h.le; omega)
  refine ⟨s2, ?_, l2, fun p => (l3 p).trans (k3 p), l4⟩
  unfold insertAt
  rw [g1]
  simp only [l1]

/-! ## Where the point is -/

/-- The corners of a triangle. -/
def corner3 (o d t : Pt K) : Nat → Pt K
  | 0 => o
  | 1 => d
  | _ => t

/-- The edges about a triangle. -/
def ring3 (s : Store (Pt K)) (e : E) : Nat → E
  | 0 => e
  | 1 => lnext s e
  | _ => lnext s (lnext s e)

theorem ready_inside {yd : Bool} {f0 f1 f2 : Pt K} {z : E} (hT : Triangulated yd f0 f1 f2 s z) {e : E}
    (he : Connected s z e) {o d t x : Pt K} (hf : FaceOf s e o d t) (ht : Turns yd o d t)
    (hx : x ≠ f0 ∧ x ≠ f1 ∧ x ≠ f2) (h1 : Turns yd o d x) (h2 : Turns yd d t x) (h3 : Turns yd t o x) :
    Ready yd f0 f1 f2 z x s (ring3 s e) (corner3 o d t) 2 := by
  have hi := Reached.inv hT.reached
  have pr : ∀ {y}, Connected s z y → Primal y := fun h => (connected_primal hi h).2 hT.primal
  have al : ∀ {y}, Connected s z y → y.q < s.size := fun h => connected_alloc hi h hT.alloc
  have c1 := lnext_connected hi he
  have c2 := lnext_connected hi c1
  obtain ⟨od, dt, ot⟩ := turns_ne ht
  have conn : ∀ i, Connected s z (ring3 s e i) := by
    intro i; match i with
    | 0 => exact he
    | 1 => exact c1
    | _ + 2 => exact c2
  have val : ∀ i, s.v (ring3 s e i) = some (corner3 o d t i) := by
    intro i; match i with
    | 0 => exact hf.2.1
    | 1 => exact hf.2.2.1
    | _ + 2 => exact hf.2.2.2
  have face : ∀ i, ∃ a b c, FaceOf s (ring3 s e i) a b c ∧ Turns yd a b c := by
    intro i; match i with
    | 0 => exact ⟨_, _, _, hf, ht⟩
    | 1 => exact ⟨_, _, _, face_rot hi hf, turns_cycle ht⟩
    | _ + 2 => exact ⟨_, _, _, face_rot hi (face_rot hi hf), turns_cycle (turns_cycle ht)⟩
  refine ⟨⟨hT.reached, hT.agree, hT.alloc, hT.primal, hT.frame, hT.outer, ?_, ?_⟩, ⟨fun i _ => pr (conn i),
    fun i _ => al (conn i), fun i _ => val i, ?_, ?_, ?_⟩, he, by omega, by omega, hx, ?_, ?_, h3⟩
  · rintro ⟨i, _, h⟩
    obtain ⟨a, b, c, g1, g2⟩ := face i
    rw [← h] at g1
    obtain ⟨rfl, rfl, rfl⟩ := face_unique hT.outer g1
    exact turns_not hT.frame g2
  · intro y hy
    exact Or.inr (hT.face y hy)
  · intro i h
    match i, h with
    | 0, _ => rfl
    | 1, _ => rfl
  · exact hf.1.1
  · intro i hi' j hj h
    have hv : some (corner3 o d t i) = some (corner3 o d t j) := by rw [← val, ← val, h]
    have hv := Option.some.inj hv
    match i, j, hi', hj, hv with
    | 0, 0, _, _, _ => rfl
    | 1, 1, _, _, _ => rfl
    | 2, 2, _, _, _ => rfl
    | 0, 1, _, _, hv => exact absurd hv od
    | 1, 0, _, _, hv => exact absurd hv.symm od
    | 0, 2, _, _, hv => exact absurd hv ot
    | 2, 0, _, _, hv => exact absurd hv.symm ot
    | 1, 2, _, _, hv => exact absurd hv dt
    | 2, 1, _, _, hv => exact absurd hv.symm dt
  · intro j h
    match j, h with
    | 0, _ => exact step_same h1
    | 1, _ => exact step_cw h1 h2
  · intro i h
    match i, h with
    | 0, _ => exact h1
    | 1, _ => exact h2

theorem ready_edge {yd : Bool} {f0 f1 f2 : Pt K} {z : E} {e r2 l1 l2 : E} {o d t td x : Pt K}
    (hM : Mesh yd f0 f1 f2 (delete s e) z (fun y => ∃ i ≤ 3, y = ring4 (oprev s e) r2 l1 l2 i))
    (hP : Poly (delete s e) (ring4 (oprev s e) r2 l1 l2) (corner4 o td d t) 3)
    (hC : Connected (delete s e) z (oprev s e)) (hx : x ≠ f0 ∧ x ≠ f1 ∧ x ≠ f2)
    (h0 : wedge yd (arrow o d) (arrow o x) = 0) (h1 : Turns yd o td x) (h2 : Turns yd td d x)
    (h3 : Turns yd d t x) (h4 : Turns yd t o x) :
    Ready yd f0 f1 f2 z x (delete s e) (ring4 (oprev s e) r2 l1 l2) (corner4 o td d t) 3 := by
  refine ⟨hM, hP, hC, by omega, le_rfl, hx, ?_, ?_, h4⟩
  · intro j h
    match j, h with
    | 0, _ => exact step_same h1
    | 1, _ => exact step_cw h1 h2
    | 2, _ =>
      refine step_line ?_ h3 h4
      show wedge yd (arrow x d) (arrow x o) = 0
      have : wedge yd (arrow x d) (arrow x o) = - wedge yd (arrow o d) (arrow o x) := by
        unfold wedge arrow; cases yd <;> simp <;> ring
      rw [this, h0, neg_zero]
  · intro i h
    match i, h with
    | 0, _ => exact h1
    | 1, _ => exact h2
    | 2, _ => exact h3

theorem onSegment_wedge {yd : Bool} {o d x : Pt K} (h : OnSegment x o d) :
    wedge yd (arrow o d) (arrow o x) = 0 := by
  obtain ⟨t, _, _, rfl⟩ := h
  unfold wedge arrow; cases yd <;> simp <;> ring

theorem wedge_weights {yd : Bool} {o d t : Pt K} {u v w : K} (h : u + v + w = 1) :
    wedge yd (arrow o d) (arrow o (u * o.1 + v * d.1 + w * t.1, u * o.2 + v * d.2 + w * t.2)) =
      w * wedge yd (arrow o d) (arrow o t) := by
  obtain rfl : u = 1 - v - w := by linear_combination h
  unfold wedge arrow; cases yd <;> simp <;> ring

/-- What happens to a point that is not on a side of the frame. -/
theorem insert_cases {yd : Bool} {f0 f1 f2 x : Pt K} {sd : Subdiv K}
    (hT : Triangulated yd f0 f1 f2 sd.store sd.start) (h01 : ¬ OnSegment x f0 f1) (h12 : ¬ OnSegment x f1 f2)
    (h20 : ¬ OnSegment x f2 f0) :
    (({ sd with ptcount := sd.ptcount + 1 } : Subdiv K).locate yd x = none ∧
      insertSite yd sd x = some (false, { sd with ptcount := sd.ptcount + 1 })) ∨
    (Vertex sd.store sd.start x ∧ insertSite yd sd x = some (true, { sd with ptcount := sd.ptcount + 1 })) ∨
    (∃ e o d t, Connected sd.store sd.start e ∧ FaceOf sd.store e o d t ∧ Turns yd o d t ∧
      Turns yd o d x ∧ Turns yd d t x ∧ Turns yd t o x ∧
      insertSite yd sd x = insertAt yd { sd with ptcount := sd.ptcount + 1 } sd.store (ring3 sd.store e 0) x) ∨
    (∃ e o d t td, Connected sd.store sd.start e ∧ FaceOf sd.store e o d t ∧ FaceOf sd.store (sym e) d o td ∧
      Turns yd o d t ∧ Turns yd d o td ∧ wedge yd (arrow o d) (arrow o x) = 0 ∧
      Turns yd o td x ∧ Turns yd td d x ∧ Turns yd d t x ∧ Turns yd t o x ∧
      insertSite yd sd x =
        insertAt yd { sd with ptcount := sd.ptcount + 1 } (delete sd.store e) (oprev sd.store e) x) := by
  have hi := Reached.inv hT.reached
  unfold insertSite
  simp only
  cases hl : ({ sd with ptcount := sd.ptcount + 1 } : Subdiv K).locate yd x with
  | none => exact Or.inl ⟨rfl, rfl⟩
  | some e =>
    right
    obtain ⟨he, hp⟩ := locate_sound hi hl
    have ke := (connected_primal hi he).2 hT.primal
    obtain ⟨o, d, t, hf, hft⟩ := hT.face e he
    have hdest := face_dest hi hT.agree ke hf
    have eq1 : ∀ {p : Pt K}, ptEqual x (some p) = true ↔ x = p := by
      intro p; unfold ptEqual; rw [decide_eq_true_iff]
    simp only [hf.2.1, hdest]
    by_cases hend : x = o ∨ x = d
    · left
      rw [if_pos (by rw [Bool.or_eq_true, eq1, eq1]; exact hend)]
      refine ⟨?_, rfl⟩
      rcases hend with rfl | rfl
      · exact ⟨e, he, hf.2.1⟩
      · exact ⟨_, lnext_connected hi he, hf.2.2.1⟩
    · rw [if_neg (by rw [Bool.or_eq_true, eq1, eq1]; exact hend)]
      rw [not_or] at hend
      obtain ⟨ht, hin⟩ := ((passed_inside hi hT.agree ke hf hp).resolve_left hend.1).resolve_left hend.2
      have hins := (inside_iff ht).1 hin
      have hon : onEdge sd.store x e = true ↔ OnSegment x o d := by
        unfold onEdge
        rw [show orig sd.store e = some o from hf.2.1, hdest]
        exact Planar.isPointOnLineSegment_iff x o d
      by_cases hseg : OnSegment x o d
      · rw [if_pos (hon.2 hseg)]
        obtain ⟨td, hg, hgt⟩ : ∃ td, FaceOf sd.store (sym e) d o td ∧
            (Turns yd d o td ∨ Outside sd.store sd.start (sym e)) := by
          obtain ⟨a, b, c, hg, hgt⟩ := hT.face _ he.sym
          have h2 : dest sd.store (sym e) = some b := face_dest hi hT.agree ((primal_sym e).2 ke) hg
          have h3 : dest sd.store e = some a := hg.2.1
          have h4 : dest sd.store (sym e) = some o := by unfold dest; rw [sym_sym]; exact hf.2.1
          rw [hdest] at h3; rw [h4] at h2
          obtain rfl := Option.some.inj h3
          obtain rfl := Option.some.inj h2
          exact ⟨c, hg, hgt⟩
        have hgt : Turns yd d o td := by
          refine hgt.resolve_right fun h' => ?_
          rcases outside_backwards hi hT.outer h' hg with (⟨rfl, rfl, rfl⟩ | ⟨rfl, rfl, rfl⟩ | ⟨rfl, rfl, rfl⟩)
          · exact h01 hseg
          · exact h20 hseg
          · exact h12 hseg
        have hin2 : InsideOrOnFirst x d o td := by
          obtain ⟨u, hu0, hu1, hxe⟩ := hseg
          have hne0 : u ≠ 0 := by
            rintro rfl
            apply hend.1
            rw [hxe]; simp
          have hne1 : u ≠ 1 := by
            rintro rfl
            apply hend.2
            rw [hxe]; simp
          refine ⟨u, 1 - u, 0, lt_of_le_of_ne hu0 (Ne.symm hne0), sub_pos.2 (lt_of_le_of_ne hu1 hne1), le_rfl,
            by ring, ?_⟩
          rw [hxe]
          refine Prod.ext ?_ ?_ <;> simp only <;> ring
        have hins2 := (inside_iff hgt).1 hin2
        have t1 : Turns yd o td x := hins2.2.1
        have t2 : Turns yd td d x := hins2.2.2
        have e1 : oprev sd.store e = lnext sd.store (sym e) := by rw [Inv.lnext_eq, sym_sym]
        have e2 : orig sd.store (oprev sd.store e) = some o := by rw [e1]; exact hg.2.2.1
        have e3 : dest sd.store (oprev sd.store e) = some td := by
          rw [e1]
          exact face_dest hi hT.agree ((inv_lnext_kind hi _).2 ((primal_sym e).2 ke)) (face_rot hi hg)
        have e4 : onext sd.store (oprev sd.store e) = e := hi.next_oprev e
        right; right
        refine ⟨e, o, d, t, td, he, hf, hg, ht, hgt, onSegment_wedge hseg, t1, t2, hins.2.1, hins.2.2, ?_⟩
        simp only [e2, e3]
        rw [if_neg (by
          rw [Bool.or_eq_true, eq1, eq1, not_or]
          exact ⟨hend.1, (turns_ne t1).2.1.symm⟩), e4]
      · rw [if_neg (by rw [hon]; exact hseg)]
        right; left
        refine ⟨e, o, d, t, he, hf, ht, ?_, hins.2.1, hins.2.2, rfl⟩
        obtain ⟨u, v, w, hu, hv, hw, hs, hxe⟩ := hin
        have hw0 : w ≠ 0 := by
          rintro rfl
          apply hseg
          refine ⟨v, hv.le, by linarith, ?_⟩
          obtain rfl : u = 1 - v := by linear_combination hs
          rw [hxe]
          refine Prod.ext ?_ ?_ <;> simp only <;> ring
        unfold Turns
        rw [hxe, wedge_weights hs]
        exact mul_pos (lt_of_le_of_ne hw (Ne.symm hw0)) ht

/-- What `InsertSite` makes of a triangulation. -/
theorem insert_site {yd : Bool} {f0 f1 f2 x : Pt K} {sd : Subdiv K}
    (hT : Triangulated yd f0 f1 f2 sd.store sd.start) (h01 : ¬ OnSegment x f0 f1) (h12 : ¬ OnSegment x f1 f2)
    (h20 : ¬ OnSegment x f2 f0) :
    ∃ r s2, insertSite yd sd x = some (r, { sd with ptcount := sd.ptcount + 1, store := s2 }) ∧
      Triangulated yd f0 f1 f2 s2 sd.start ∧
      (r = false → s2 = sd.store ∧ ({ sd with ptcount := sd.ptcount + 1 } : Subdiv K).locate yd x = none) ∧
      (r = true → ∀ p, Vertex s2 sd.start p ↔ Vertex sd.store sd.start p ∨ p = x) := by
  have hi := Reached.inv hT.reached
  have hx : x ≠ f0 ∧ x ≠ f1 ∧ x ≠ f2 := by
    refine ⟨?_, ?_, ?_⟩ <;> rintro rfl
    · exact h01 ⟨0, le_rfl, zero_le_one, by simp⟩
    · exact h12 ⟨0, le_rfl, zero_le_one, by simp⟩
    · exact h20 ⟨0, le_rfl, zero_le_one, by simp⟩
  have triv : ∀ {base : E}, Keeps yd f0 f1 f2 sd.start x base (fun _ _ _ => True) (fun _ => True) :=
    ⟨fun _ _ _ _ _ _ _ _ _ => trivial, fun _ _ _ _ _ _ _ _ _ _ => trivial,
      fun _ _ _ _ _ _ _ _ _ _ _ => trivial⟩
  rcases insert_cases hT h01 h12 h20 with ⟨h1, h2⟩ | ⟨h1, h2⟩ | ⟨e, o, d, t, he, hf, ht, t1, t2, t3, h2⟩ |
    ⟨e, o, d, t, td, he, hf, hg, ht, hgt, h0, t1, t2, t3, t4, h2⟩
  · exact ⟨false, sd.store, h2, hT, fun _ => ⟨rfl, h1⟩, nofun⟩
  · refine ⟨true, sd.store, h2, hT, nofun, fun _ p => ?_⟩
    constructor
    · exact Or.inl
    · rintro (h | rfl)
      · exact h
      · exact h1
  · have hR := ready_inside hT he hf ht hx t1 t2 t3
    obtain ⟨s2, g1, g2, g3, _⟩ := insert_at hR _ _ triv (fun _ _ _ _ => trivial)
      { sd with ptcount := sd.ptcount + 1 }
    exact ⟨true, s2, h2.trans g1, g2, nofun, fun _ => g3⟩
  · obtain ⟨r2, l1, l2, m1, m2, m3, m4, m5, m6, m7⟩ := mesh_delete hT he hf hg ht hgt
    have hq : (oprev sd.store e).q ≠ e.q := by
      intro h
      have ke := (connected_primal hi he).2 hT.primal
      have hn := m3.nodup
      simp only [List.nodup_cons, List.mem_cons, List.not_mem_nil, or_false, not_or] at hn
      rcases same_quad h (iff_of_true ((hi.kind_oprev e).2 ke) ke) with h' | h'
      · exact hn.1.2.2.2.1 h'.symm
      · exact hn.2.2.2.1.1 h'.symm
    have hR := ready_edge (x := x) m1 m2 (m5 _ (oprev_connected hi he) hq) hx h0 t1 t2 t3 t4
    obtain ⟨s2, g1, g2, g3, _⟩ := insert_at hR _ _ triv (fun _ _ _ _ => trivial)
      { sd with ptcount := sd.ptcount + 1 }
    exact ⟨true, s2, h2.trans g1, g2, nofun, fun _ p => (g3 p).trans (or_congr (m7 p) Iff.rfl)⟩

end Verif.Lemmas.SubInsert
