import Verif.Model.Makevalid
import Verif.Spec.WalkerRing
import Verif.Spec.Makevalid

set_option linter.unusedSectionVars false

namespace Verif.Makevalid
open Verif.Planar (Line)
open Verif.Shapes (Triangle center)
open Verif.HitMap (Label)
open Verif.Simplify (Ctx)
open Verif.Spec.Walker
open Verif.Spec.Makevalid
open Verif.Spec.Winding (area2)

section
variable {K : Type} [CommRing K] [LinearOrder K]

/-- The relation that `OppositeSides` asks for between two triangles. -/
def Opp (t u : Pt K × Pt K × Pt K) : Prop :=
  ∀ p q w w', Corners t p q w → Corners u p q w' → area2 [p, q, w] * area2 [p, q, w'] < 0

theorem opposite_iff (ts : List (Pt K × Pt K × Pt K)) : OppositeSides ts ↔ ts.Pairwise Opp := by
  rw [List.pairwise_iff_getElem]
  constructor
  · intro h i j hi hj hij p q w w' h1 h2
    exact h i j _ _ p q w w' (by omega) (List.getElem?_eq_getElem hi) (List.getElem?_eq_getElem hj) h1 h2
  · intro h i j t u p q w w' hij ht hu h1 h2
    obtain ⟨hi, rfl⟩ := List.getElem?_eq_some_iff.1 ht
    obtain ⟨hj, rfl⟩ := List.getElem?_eq_some_iff.1 hu
    rcases Nat.lt_or_gt_of_ne hij with h' | h'
    · exact h i j hi hj h' p q w w' h1 h2
    · rw [mul_comm]
      exact h j i hj hi h' p q w' w h2 h1

theorem opposite_sublist {ts us : List (Pt K × Pt K × Pt K)} (h : us.Sublist ts) (ho : OppositeSides ts) :
    OppositeSides us :=
  (opposite_iff us).2 (((opposite_iff ts).1 ho).sublist h)

end

variable {K E : Type} [Field K] [LinearOrder K]

theorem labelLoop_ok (ctx : Ctx) (label : Pt K → Label) :
    ∀ (ts : List (Triangle K)) (n : Nat) (acc : List (Triangle K)),
      (∀ k, k < ts.length → ctx (n + k) = false) →
      (labelLoop ctx label n ts acc : Except (Err E) _) =
        .ok (acc ++ ts.filter (fun t => decide (label (center t) = .inside)))
  | [], _, acc, _ => by simp [labelLoop]
  | t :: ts, n, acc, h => by
    have h0 : ctx n = false := h 0 (by simp)
    have ih := fun acc => labelLoop_ok ctx label ts (n + 1) acc (fun k hk => by
      have := h (k + 1) (by simp; omega)
      rwa [show n + 1 + k = n + (k + 1) by omega])
    rw [labelLoop, if_neg (by simp [h0])]
    cases hl : label (center t) with
    | outside => rw [if_pos rfl, ih, List.filter_cons_of_neg (by simp [hl])]
    | inside =>
      rw [if_neg (by simp), ih, List.filter_cons_of_pos (by simp [hl])]
      simp

theorem labelLoop_stop (ctx : Ctx) (label : Pt K → Label) :
    ∀ (ts : List (Triangle K)) (n : Nat) (acc : List (Triangle K)) (k : Nat),
      k < ts.length → ctx (n + k) = true →
      (labelLoop ctx label n ts acc : Except (Err E) _) = .error .context
  | [], _, _, _, h, _ => absurd h (by simp)
  | t :: ts, n, acc, k, hk, hc => by
    rw [labelLoop]
    split_ifs with h1 h2
    · rfl
    all_goals
      cases k with
      | zero => exact absurd hc h1
      | succ k =>
        exact labelLoop_stop ctx label ts (n + 1) _ k (by simpa using hk)
          (by rwa [show n + 1 + k = n + (k + 1) by omega])

/-- The inside triangles, where nothing stops it. -/
theorem insideForSegments_ok {triangulate : List (Line K) → Except E (List (Triangle K))} (ctx : Ctx)
    (label : Pt K → Label) {segs : List (Line K)} {all : List (Triangle K)} (h : triangulate segs = .ok all)
    (hctx : ∀ k, k < all.length → ctx k = false) :
    insideForSegments triangulate ctx label segs =
      .ok (all.filter (fun t => decide (label (center t) = .inside))) := by
  rw [insideForSegments, h]
  show (if all.length = 0 then _ else _) = _
  split_ifs with h0
  · rw [List.length_eq_zero_iff] at h0
    subst h0
    rfl
  · rw [labelLoop_ok ctx label all 0 [] (by simpa using hctx)]
    rfl

/-- What `Makevalid` returns for what `makevalidPolygon` returned. -/
def finish : Option (Except (Err E) (Option (List (List (List (Pt K)))))) →
    Option (Except (Err E) (Result K × Bool))
  | none => none
  | some (.error e) => some (.error e)
  | some (.ok vmp) => some (.ok (.multiPolygon vmp, true))

/-- What `Makevalid` returns for points and lines. -/
def passOn (clipper : Option (Geom K → Except E (Geom K))) (g : Geom K) :
    Option (Except (Err E) (Result K × Bool)) :=
  match clipper with
  | none => some (.ok (.geom g, false))
  | some clip =>
    match clip g with
    | .error e => some (.error (.inner e))
    | .ok gg => some (.ok (.geom gg, true))

theorem finish_clipped (x : Option (Except (Err E) (Option (List (List (List (Pt K))))))) (r : Result K) :
    finish x ≠ some (.ok (r, false)) := by
  match x with
  | none => simp [finish]
  | some (.error e) => simp [finish]
  | some (.ok v) => simp [finish]

theorem passOn_false (clipper : Option (Geom K → Except E (Geom K))) (g : Geom K) (r : Result K) :
    passOn clipper g = some (.ok (r, false)) ↔ clipper = none ∧ r = .geom g := by
  unfold passOn
  cases clipper with
  | none => simp [eq_comm]
  | some clip =>
    simp only []
    cases clip g <;> simp

theorem passOn_known (clipper : Option (Geom K → Except E (Geom K))) (g : Geom K) :
    passOn clipper g ≠ some (.error .unknownGeometry) := by
  unfold passOn
  cases clipper with
  | none => simp
  | some clip =>
    simp only []
    cases clip g <;> simp

theorem labelLoop_known (ctx : Ctx) (label : Pt K → Label) :
    ∀ (ts : List (Triangle K)) (n : Nat) (acc : List (Triangle K)),
      (labelLoop ctx label n ts acc : Except (Err E) _) ≠ .error .unknownGeometry
  | [], _, _ => by simp [labelLoop]
  | t :: ts, n, acc => by
    rw [labelLoop]
    split_ifs
    · simp
    · exact labelLoop_known ctx label ts _ _
    · exact labelLoop_known ctx label ts _ _

theorem inside_known (triangulate : List (Line K) → Except E (List (Triangle K))) (ctx : Ctx)
    (label : Pt K → Label) (segs : Option (List (Line K))) :
    insideForMultiPolygon triangulate ctx label segs ≠ .error .unknownGeometry := by
  unfold insideForMultiPolygon insideForSegments
  split
  · simp
  · simp
  · split
    · simp
    · split_ifs
      · simp
      · exact labelLoop_known _ _ _ _ _

theorem finish_known (triangulate : List (Line K) → Except E (List (Triangle K))) (ctx : Ctx)
    (walk : List (Triangle K) → Option (List (List (List (Pt K))))) (label : Pt K → Label)
    (segs : Option (List (Line K))) :
    finish (makevalidPolygon triangulate ctx walk label segs) ≠ some (.error .unknownGeometry) := by
  have := inside_known triangulate ctx label segs
  unfold makevalidPolygon
  split
  · rename_i e he
    rw [he] at this
    simpa [finish] using this
  · simp [finish]
  · rename_i t ts _
    cases walk (t :: ts) <;> simp [finish]

theorem makevalid_polygonal (clipper : Option (Geom K → Except E (Geom K)))
    (destr : List (List (List (Pt K))) → Option (List (Line K)))
    (triangulate : List (Line K) → Except E (List (Triangle K))) (ctx : Ctx)
    (walk : List (Triangle K) → Option (List (List (List (Pt K)))))
    (label : List (List (List (Pt K))) → Pt K → Label) (g : Geom K) (mp : List (List (List (Pt K))))
    (hg : Polygonal g mp) :
    makevalid clipper destr triangulate ctx walk label g =
      finish (makevalidPolygon triangulate ctx walk (label mp) (destr mp)) := by
  rcases hg with ⟨rs, rfl, rfl⟩ | rfl <;> rfl

end Verif.Makevalid
