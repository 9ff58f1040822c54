import Verif.Model.MeshField
import Verif.Props.GmshGroupsSpec

/-! Specification of the mesh size from the Knudsen number (C97). -/

namespace Verif.KnSpec

open Verif.Kn (Geo Mat Par)
open Verif.Overlay (Name)
open Verif.MFiles (str)

variable {P : Type}

/-- The mean over the groups. -/
noncomputable def avg (l : List ℝ) : ℝ := l.sum / l.length

/-- The total cross section, averaged over the groups. -/
noncomputable def sigma (m : Mat) : ℝ := avg m.xsec.a + avg m.xsec.s

/-- Less than a fifth of the collisions are scattering, and the material is not thin. -/
def Absorber (m : Mat) : Prop := avg m.xsec.s / sigma m < 0.2 ∧ 0.9 < sigma m

/-- The entities of a material: those of the group with its name. -/
def Ents (groups : List (Gmsh.Group Name)) (d : ℤ) (m : Mat) : Set ℤ :=
  {e | ∃ g ∈ groups, g.dim = d ∧ g.name = str "Material_" ++ m.name ∧ e ∈ g.ents}

/-- Place `p` is on the material. -/
def On (G : Geo P) (groups : List (Gmsh.Group Name)) (d : ℤ) (m : Mat) (p : P) : Prop := ∃ e ∈ Ents groups d m, G.on (d, e) p

/-- The entities of the fuel. -/
def Fuel (groups : List (Gmsh.Group Name)) (d : ℤ) (mats : List Mat) : Set ℤ := {e | ∃ m ∈ mats, m.xsec.fissile = true ∧ e ∈ Ents groups d m}

/-- The entities of the boundary of a material. -/
def Bnd (G : Geo P) (groups : List (Gmsh.Group Name)) (d : ℤ) (m : Mat) : Set ℤ := {b | ∃ e ∈ Ents groups d m, b ∈ G.down (d, e)}

/-- The size for a Knudsen number. -/
noncomputable def base (kn s : ℝ) : ℝ := 12 / (Real.pi * √3 * kn * s)

/-- The size at distance `d`, with the coefficients as they are printed: `lc (1 + scl (s d - thr))`, at least `lc`. -/
noncomputable def grown (prt : ℝ → ℝ) (lc s thr scl d : ℝ) : ℝ :=
  max lc (d * prt (lc * s * scl) + if 0 ≤ lc * (1 - thr * scl) then prt (lc * (1 - thr * scl)) else -prt (-(lc * (1 - thr * scl))))

open Classical in
/-- The size of a material at a place. -/
noncomputable def size (G : Geo P) (prt : ℝ → ℝ) (groups : List (Gmsh.Group Name)) (mats : List Mat) (q : Par) (m : Mat) (p : P) : ℝ :=
  if 0 ≤ q.absThr ∧ Absorber m then
    grown prt (base q.kn (sigma m)) (sigma m) q.absThr q.absScl (G.dist (q.dim - 1) (Bnd G groups q.dim m) p)
  else if 0 ≤ q.fuelThr ∧ m.xsec.fissile = false ∧ ¬ Absorber m then
    grown prt (base q.kn (sigma m)) (sigma m) q.fuelThr q.fuelScl (G.dist q.dim (Fuel groups q.dim mats) p)
  else base q.kn (sigma m)

/-- The arguments that are accepted. -/
structure Accepted (G : Geo P) (groups : List (Gmsh.Group Name)) (mats : List Mat) (q : Par) : Prop where
  count : (groups.filter fun g => g.dim == q.dim && (str "Material").isPrefixOf g.name).length = mats.length
  group : ∀ m ∈ mats, ∃ g ∈ groups, g.dim = q.dim ∧ g.name = str "Material_" ++ m.name
  pos : 0 < q.kn
  xsec : ∀ m ∈ mats, m.xsec.macro_ = true ∧ m.xsec.a ≠ []
  dim : mats ≠ [] → 0 ≤ q.dim ∧ q.dim ≤ 3
  fuel : 0 ≤ q.fuelThr → (∃ m ∈ mats, m.xsec.fissile = true) ∧
    mats.Pairwise fun m n => m.xsec.fissile = true → n.xsec.fissile = true → ∀ e, e ∈ Ents groups q.dim m → e ∉ Ents groups q.dim n
  abs : 0 ≤ q.absThr → (∃ m ∈ mats, Absorber m) ∧ 1 ≤ q.dim ∧
    ∀ m ∈ mats, Absorber m → ∀ e ∈ Ents groups q.dim m, G.down (q.dim, e) ≠ [] ∧ (G.down (q.dim, e)).Nodup

/-- Cross sections with values for all reactions, as a `Vector` for each. -/
def Full (m : Mat) : Prop :=
  m.xsec.a.length = m.xsec.ng ∧ m.xsec.f.length = m.xsec.ng ∧ m.xsec.nuf.length = m.xsec.ng ∧ m.xsec.tr.length = m.xsec.ng ∧
  m.xsec.s.length = m.xsec.ng ∧ m.xsec.ss.length = m.xsec.ng * m.xsec.ng

end Verif.KnSpec
