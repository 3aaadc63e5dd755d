import Verif.Model.F64
import Verif.Model.Geom
import Verif.Spec.Wkb

/-!
# Specification vocabulary for WKT text

The grammar is written from the description of WKT, without reference to the model's
reader or writer.  It is relative to what counts as a number (`parse`) and to when the
two ends of a ring count as the same (`same`).
-/

namespace Verif.Spec.Wkt
open Verif Verif.Spec.Wkb

/-- White space: tab, line feed, vertical tab, form feed, carriage return, space, and
the Latin-1 next-line and no-break space. -/
def Blank (w : List Byte) : Prop :=
  ∀ b ∈ w, b.toNat ∈ [9, 10, 11, 12, 13, 32, 133, 160]

/-- Characters of a number: digits, `-`, `.`, `E`, `e`. -/
def NumChar (b : Byte) : Prop := (48 ≤ b.toNat ∧ b.toNat ≤ 57) ∨ b.toNat ∈ [45, 46, 69, 101]

/-- A number. -/
def Number (parse : List Byte → Option F64) (f : F64) (t : List Byte) : Prop :=
  (∀ b ∈ t, NumChar b) ∧ parse t = some f

/-- Two numbers with white space between them. -/
def Position (parse : List Byte → Option F64) (p : Pt F64) (t : List Byte) : Prop :=
  ∃ t1 w t2, t = t1 ++ (w ++ t2) ∧ Number parse p.1 t1 ∧ Blank w ∧ w ≠ [] ∧ Number parse p.2 t2

/-- One or more things with commas between them, white space allowed around commas. -/
inductive Commas {α : Type} (P : α → List Byte → Prop) : List α → List Byte → Prop
  | one (a t) : P a t → Commas P [a] t
  | more (a t w w' as u) : P a t → Blank w → Blank w' → Commas P as u →
      Commas P (a :: as) (t ++ (w ++ (44#8 :: (w' ++ u))))

/-- A parenthesised, comma separated list; it may be empty. -/
inductive Parens {α : Type} (P : α → List Byte → Prop) : List α → List Byte → Prop
  | none (w) : Blank w → Parens P [] (40#8 :: (w ++ [41#8]))
  | some (w as t w') : Blank w → Commas P as t → Blank w' → Parens P as (40#8 :: (w ++ (t ++ (w' ++ [41#8]))))

/-- Lower case of an ASCII letter. -/
def toLower (b : Byte) : Byte := if 65 ≤ b.toNat ∧ b.toNat ≤ 90 then b + 32#8 else b

/-- A keyword in any case, white space allowed around it, and then the body. -/
def Tagged (kw : List Char) (body t : List Byte) : Prop :=
  ∃ w k w', t = w ++ (k ++ (w' ++ body)) ∧ Blank w ∧ Blank w' ∧
    k.map toLower = kw.map (fun c => BitVec.ofNat 8 c.toNat)

/-- A written ring: at least four vertices, the last the same as the first. -/
def Closed (same : Pt F64 → Pt F64 → Bool) (r : List (Pt F64)) : Prop :=
  4 ≤ r.length ∧ ∃ a z, r.head? = some a ∧ r.getLast? = some z ∧ same a z = true

/-- `Text g t`: `t` is WKT text of `g`.  Rings are written closed; the geometry has them
without the repeated vertex.  A collection may have one comma after its last member. -/
inductive Text (parse : List Byte → Option F64) (same : Pt F64 → Pt F64 → Bool) : Geom F64 → List Byte → Prop
  | point (p body t) : Parens (Position parse) [p] body →
      Tagged ['p', 'o', 'i', 'n', 't'] body t → Text parse same (.point p) t
  | multiPoint (ps body t) : Parens (Position parse) ps body →
      Tagged ['m', 'u', 'l', 't', 'i', 'p', 'o', 'i', 'n', 't'] body t → Text parse same (.multiPoint ps) t
  | lineString (ps body t) : Parens (Position parse) ps body → 2 ≤ ps.length →
      Tagged ['l', 'i', 'n', 'e', 's', 't', 'r', 'i', 'n', 'g'] body t → Text parse same (.lineString ps) t
  | multiLineString (ls body t) : Parens (Parens (Position parse)) ls body → ls ≠ [] → (∀ l ∈ ls, 2 ≤ l.length) →
      Tagged ['m', 'u', 'l', 't', 'i', 'l', 'i', 'n', 'e', 's', 't', 'r', 'i', 'n', 'g'] body t →
      Text parse same (.multiLineString ls) t
  | polygon (rs body t) : Parens (Parens (Position parse)) rs body → rs ≠ [] → (∀ r ∈ rs, Closed same r) →
      Tagged ['p', 'o', 'l', 'y', 'g', 'o', 'n'] body t → Text parse same (.polygon (rs.map List.dropLast)) t
  | multiPolygon (ps body t) : Parens (Parens (Parens (Position parse))) ps body → ps ≠ [] →
      (∀ p ∈ ps, ∀ r ∈ p, Closed same r) →
      Tagged ['m', 'u', 'l', 't', 'i', 'p', 'o', 'l', 'y', 'g', 'o', 'n'] body t →
      Text parse same (.multiPolygon (ps.map (·.map List.dropLast))) t
  | collection (ms : List (Geom F64 × List Byte)) (w inner tail t) :
      (∀ m ∈ ms, Text parse same m.1 m.2) →
      Commas (fun m u => u = m.2) ms inner → Blank w →
      (Blank tail ∨ ∃ v v', tail = v ++ (44#8 :: v') ∧ Blank v ∧ Blank v') →
      Tagged ['g', 'e', 'o', 'm', 'e', 't', 'r', 'y', 'c', 'o', 'l', 'l', 'e', 'c', 't', 'i', 'o', 'n']
        (40#8 :: (w ++ (inner ++ (tail ++ [41#8])))) t →
      Text parse same (.collection (ms.map (·.1))) t

/-! ## What the encoder keeps -/

/-- Neither coordinate is NaN. -/
def numeric (p : Pt F64) : Bool := !p.1.isNaN && !p.2.isNaN

/-- Drop vertices equal to the vertex kept before them. -/
def squeezeAfter (a : Pt F64) : List (Pt F64) → List (Pt F64)
  | [] => []
  | b :: t => if samePoint a b then squeezeAfter a t else b :: squeezeAfter b t

/-- Drop vertices equal to the vertex kept before them. -/
def squeeze : List (Pt F64) → List (Pt F64)
  | [] => []
  | a :: t => a :: squeezeAfter a t

/-- A line without NaN vertices and without repeated vertices. -/
def tidyLine (l : List (Pt F64)) : List (Pt F64) := squeeze (l.filter numeric)

/-- The rings that have a numeric vertex, tidied and without the closing vertex. -/
def tidyRings (rs : List (List (Pt F64))) : List (List (Pt F64)) :=
  (rs.filter (·.any numeric)).map (fun r => openRing (tidyLine r))

mutual
/-- The geometry as WKT can carry it. -/
def tidy : Geom F64 → Geom F64
  | .lineString ps => .lineString (tidyLine ps)
  | .multiLineString ls => .multiLineString (ls.map tidyLine)
  | .polygon rs => .polygon (tidyRings rs)
  | .multiPolygon ps => .multiPolygon (ps.map tidyRings)
  | .collection gs => .collection (tidyAll gs)
  | g => g
def tidyAll : List (Geom F64) → List (Geom F64)
  | [] => []
  | g :: gs => tidy g :: tidyAll gs
end

mutual
/-- Nothing that would have to be written as EMPTY, lines of two vertices and rings of
three vertices at least. -/
def Ready : Geom F64 → Prop
  | .point p => numeric p = true
  | .multiPoint ps => ps ≠ [] ∧ ∀ p ∈ ps, numeric p = true
  | .lineString ps => 2 ≤ (tidyLine ps).length
  | .multiLineString ls => ls ≠ [] ∧ ∀ l ∈ ls, 2 ≤ (tidyLine l).length
  | .polygon rs => tidyRings rs ≠ [] ∧ ∀ r ∈ tidyRings rs, 3 ≤ r.length
  | .multiPolygon ps => ps ≠ [] ∧ ∀ p ∈ ps, tidyRings p ≠ [] ∧ ∀ r ∈ tidyRings p, 3 ≤ r.length
  | .collection gs => gs ≠ [] ∧ ReadyAll gs
  | .other => False
def ReadyAll : List (Geom F64) → Prop
  | [] => True
  | g :: gs => Ready g ∧ ReadyAll gs
end

/-- Strict mode: no NaN vertex. -/
def strictOk (strict : Bool) (l : List (Pt F64)) : Prop := strict = true → ∀ p ∈ l, numeric p = true

/-- A line that can be written: empty, or two vertices at least. -/
def LineOk (strict : Bool) (l : List (Pt F64)) : Prop :=
  strictOk strict l ∧ (tidyLine l = [] ∨ 2 ≤ (tidyLine l).length)

/-- Rings that can be written: in strict mode all of them have vertices and these are
numeric; otherwise rings without a numeric vertex are left out.  Three vertices at
least, counting a repeated last one. -/
def RingsOk (strict : Bool) (rs : List (List (Pt F64))) : Prop :=
  (strict = true → ∀ r ∈ rs, r ≠ [] ∧ ∀ p ∈ r, numeric p = true) ∧
  ∀ r ∈ rs, r.any numeric = true → 3 ≤ (tidyLine r).length

mutual
/-- What the encoder accepts. -/
def Accepted (strict : Bool) : Geom F64 → Prop
  | .point _ => True
  | .multiPoint _ => True
  | .lineString ps => LineOk strict ps
  | .multiLineString ls => ∀ l ∈ ls, LineOk strict l
  | .polygon rs => RingsOk strict rs
  | .multiPolygon ps => ∀ p ∈ ps, RingsOk strict p
  | .collection gs => AcceptedAll strict gs
  | .other => False
def AcceptedAll (strict : Bool) : List (Geom F64) → Prop
  | [] => True
  | g :: gs => Accepted strict g ∧ AcceptedAll strict gs
end

mutual
/-- Every coordinate replaced. -/
def mapCoords (f : F64 → F64) : Geom F64 → Geom F64
  | .point p => .point (f p.1, f p.2)
  | .multiPoint ps => .multiPoint (ps.map fun p => (f p.1, f p.2))
  | .lineString ps => .lineString (ps.map fun p => (f p.1, f p.2))
  | .multiLineString ls => .multiLineString (ls.map (·.map fun p => (f p.1, f p.2)))
  | .polygon rs => .polygon (rs.map (·.map fun p => (f p.1, f p.2)))
  | .multiPolygon ps => .multiPolygon (ps.map (·.map (·.map fun p => (f p.1, f p.2))))
  | .collection gs => .collection (mapCoordsAll f gs)
  | .other => .other
def mapCoordsAll (f : F64 → F64) : List (Geom F64) → List (Geom F64)
  | [] => []
  | g :: gs => mapCoords f g :: mapCoordsAll f gs
end

mutual
/-- `R` holds of every coordinate of every vertex that is not NaN. -/
def OnCoords (R : F64 → Prop) : Geom F64 → Prop
  | .point p => numeric p = true → R p.1 ∧ R p.2
  | .multiPoint ps => ∀ p ∈ ps, numeric p = true → R p.1 ∧ R p.2
  | .lineString ps => ∀ p ∈ ps, numeric p = true → R p.1 ∧ R p.2
  | .multiLineString ls => ∀ l ∈ ls, ∀ p ∈ l, numeric p = true → R p.1 ∧ R p.2
  | .polygon ls => ∀ l ∈ ls, ∀ p ∈ l, numeric p = true → R p.1 ∧ R p.2
  | .multiPolygon ps => ∀ ls ∈ ps, ∀ l ∈ ls, ∀ p ∈ l, numeric p = true → R p.1 ∧ R p.2
  | .collection gs => OnCoordsAll R gs
  | .other => True
def OnCoordsAll (R : F64 → Prop) : List (Geom F64) → Prop
  | [] => True
  | g :: gs => OnCoords R g ∧ OnCoordsAll R gs
end

/-- The parser reads the formatter's text of `f` as `rnd f`. -/
def ReadsBack (fmt : F64 → List Byte) (parse : List Byte → Option F64) (rnd : F64 → F64) (f : F64) : Prop :=
  Number parse (rnd f) (fmt f)

end Verif.Spec.Wkt
