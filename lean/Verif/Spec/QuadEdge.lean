import Verif.Model.QuadEdge
import Mathlib.Logic.Function.Iterate

/-!
# Vocabulary for the properties of the quad-edge structure
-/

namespace Verif.Spec.Quad
open Verif.Quad

variable {P : Type}

/-- An edge of the subdivision itself (not of its dual). -/
def Primal (e : E) : Prop := e.num = 0 ∨ e.num = 2

instance (e : E) : Decidable (Primal e) := inferInstanceAs (Decidable (_ ∨ _))

/-- Two edges of the same kind: both primal or both dual. -/
def SameKind (a b : E) : Prop := Primal a ↔ Primal b

instance (a b : E) : Decidable (SameKind a b) := inferInstanceAs (Decidable (_ ↔ _))

/-- The edge was handed out by the structure. -/
def Allocated (s : Store P) (e : E) : Prop := e.q < s.size

instance (s : Store P) (e : E) : Decidable (Allocated s e) := inferInstanceAs (Decidable (_ < _))

/-- The stores a program can get to: it makes edges, sets their end points, and splices edges it was
given; two edges spliced are of the same kind. -/
inductive Reached : Store P → Prop
  | empty : Reached Store.empty
  | new {s} : Reached s → Reached (new s).1
  | newWithEndPoints {s} (o d : Option P) : Reached s → Reached (newWithEndPoints s o d).1
  | endPoints {s} (e : E) (o d : Option P) : Reached s → Allocated s e → Reached (endPoints s e o d)
  | splice {s} (a b : E) : Reached s → Allocated s a → Allocated s b → SameKind a b →
      Reached (splice s a b)
  | connect {s} (a b : E) : Reached s → Allocated s a → Allocated s b → Primal a → Primal b →
      Reached (connectTo s a b).1
  | connectNil {s} (a : E) : Reached s → Allocated s a → Primal a → Reached (connectNil s a).1
  | swap {s} (e : E) : Reached s → Allocated s e → Reached (swap s e)
  | delete {s} (e : E) : Reached s → Allocated s e → Reached (delete s e)

/-- As `Reached`, but edges of different kinds may be spliced too. -/
inductive ReachedMixed : Store P → Prop
  | empty : ReachedMixed Store.empty
  | new {s} : ReachedMixed s → ReachedMixed (new s).1
  | splice {s} (a b : E) : ReachedMixed s → Allocated s a → Allocated s b →
      ReachedMixed (splice s a b)

/-- The laws of the edge algebra (Guibas and Stolfi 1985, section 2). -/
structure Algebra (s : Store P) : Prop where
  rot4 : ∀ e, rot (rot (rot (rot e))) = e
  rot_ne : ∀ e, rot (rot e) ≠ e
  sym_rot : ∀ e, sym e = rot (rot e)
  inv_rot : ∀ e, invRot (rot e) = e
  rot_inv : ∀ e, rot (invRot e) = e
  oprev_onext : ∀ e, oprev s (onext s e) = e
  onext_oprev : ∀ e, onext s (oprev s e) = e
  dprev_dnext : ∀ e, dprev s (dnext s e) = e
  dnext_dprev : ∀ e, dnext s (dprev s e) = e
  lprev_lnext : ∀ e, lprev s (lnext s e) = e
  lnext_lprev : ∀ e, lnext s (lprev s e) = e
  rprev_rnext : ∀ e, rprev s (rnext s e) = e
  rnext_rprev : ∀ e, rnext s (rprev s e) = e
  /-- seen from the dual, the edges turn the other way round -/
  dual : ∀ e, onext s (rot e) = invRot (oprev s e)

/-- Edges around a vertex are edges, edges around a face are dual edges. -/
def KindsApart (s : Store P) : Prop := ∀ e, SameKind (onext s e) e

/-- `y` comes up when going round the origin of `x` with `ONext`. -/
inductive Around (s : Store P) (x : E) : E → Prop
  | refl : Around s x x
  | next {y} : Around s x y → Around s x (onext s y)

/-- `y` is the first edge after `x` around their origin that does not belong to the quad-edge `q`. -/
inductive FirstAfterSkipping (s : Store P) (q : Nat) : E → E → Prop
  | here {x} : (onext s x).q ≠ q → FirstAfterSkipping s q x (onext s x)
  | skip {x y} : (onext s x).q = q → FirstAfterSkipping s q (onext s x) y →
      FirstAfterSkipping s q x y

/-- `y` comes up when going round the face to the left of `x` with `LNext`. -/
inductive AroundFace (s : Store P) (x : E) : E → Prop
  | refl : AroundFace s x x
  | next {y} : AroundFace s x y → AroundFace s x (lnext s y)

/-- `R` and `R'` say which edges are on one ring.  The rings of `R'` are those of `R`, save that the
ring of `a` and the ring of `b` have become one (among the edges of the kind of `a`). -/
def Joined (R R' : E → E → Prop) (a b : E) : Prop :=
  ∀ x y, SameKind x a →
    (R' x y ↔ R x y ∨ ((R a x ∨ R b x) ∧ (R a y ∨ R b y)))

/-- `L` is once round with the step `f`, from `e`: `e`, `f e`, `f (f e)`, … up to where `f` leads
back to `e`, no edge twice. -/
def OnceRound (f : E → E) (e : E) (L : List E) : Prop :=
  0 < L.length ∧ L = (List.range L.length).map (fun i => f^[i] e) ∧ L.Nodup ∧ f^[L.length] e = e

/-- The beginning of a list up to and including the first element that says stop. -/
def upTo (cont : E → Bool) : List E → List E
  | [] => []
  | x :: xs => if cont x then x :: upTo cont xs else [x]

/-- All edges around a vertex name the same point as origin. -/
def OriginsAgree (s : Store P) : Prop :=
  ∀ x y, Primal x → Around s x y → orig s y = orig s x

/-- Both ends of the edge have some other edge before it: what is needed to turn it inside the
quadrilateral made by its two faces. -/
def Turnable (s : Store P) (e : E) : Prop :=
  (oprev s e).q ≠ e.q ∧ (oprev s (sym e)).q ≠ e.q

instance (s : Store P) (e : E) : Decidable (Turnable s e) := inferInstanceAs (Decidable (_ ∧ _))

/-- The stores a program gets to that only splices edges with the same origin, and connects, turns
and deletes edges. -/
inductive Built : Store P → Prop
  | empty : Built Store.empty
  | new {s} : Built s → Built (new s).1
  | newWithEndPoints {s} (o d : Option P) : Built s → Built (newWithEndPoints s o d).1
  | splice {s} (a b : E) : Built s → Allocated s a → Allocated s b → Primal a → Primal b →
      orig s a = orig s b → Built (splice s a b)
  | connect {s} (a b : E) : Built s → Allocated s a → Allocated s b → Primal a → Primal b →
      Built (connectTo s a b).1
  | swap {s} (e : E) : Built s → Allocated s e → Primal e → Turnable s e → Built (swap s e)
  | delete {s} (e : E) : Built s → Allocated s e → Primal e → Built (delete s e)

/-- The edges on a stack after pushes (`some e`) and pops (`none`), the last pushed first. -/
def stackSpec : List E → List (Option E) → List E
  | st, [] => st
  | st, some e :: ops => stackSpec (e :: st) ops
  | st, none :: ops => stackSpec st.tail ops

/-- The stack after a history. -/
def stackRun : List E → List (Option E) → List E
  | st, [] => st
  | st, some e :: ops => stackRun (push st e) ops
  | st, none :: ops => stackRun (pop st).2 ops

end Verif.Spec.Quad
