import Mathlib.Data.Real.Basic

/-!
# The polar quadrature of the CMFD analysis

Model of src/physics/cmfd.cpp 112-140: the table of the Gauss-Legendre quadrature with 32 points in `set_U`.  The literals are the exact
decimal numbers; the rounding to `Float` is a change of the table by a relative `2^-53` or `2^-24`.
-/

namespace Verif.Cmfd

/-- `mu`, cmfd.cpp 116-127. -/
def mu : List ℚ :=
  [-0.9972638618494816, -0.9856115115452684, -0.9647622555875064, -0.9349060759377397,
    -0.8963211557660521, -0.84936761373257, -0.7944837959679424, -0.7321821187402897,
    -0.6630442669302152, -0.5877157572407623, -0.5068999089322294, -0.42135127613063533,
    -0.33186860228212767, -0.23928736225213706, -0.1444719615827965, -0.048307665687738324,
    0.048307665687738324, 0.1444719615827965, 0.23928736225213706, 0.33186860228212767,
    0.42135127613063533, 0.5068999089322294, 0.5877157572407623, 0.6630442669302152,
    0.7321821187402897, 0.7944837959679424, 0.84936761373257, 0.8963211557660521,
    0.9349060759377397, 0.9647622555875064, 0.9856115115452684, 0.9972638618494816]

/-- `w`, cmfd.cpp 128-139. -/
def w : List ℚ :=
  [0.007018610009470092, 0.016274394730905643, 0.025392065309262066, 0.03427386291302141,
    0.04283589802222672, 0.05099805926237615, 0.05868409347853548, 0.0658222227763618,
    0.07234579410884856, 0.07819389578707032, 0.08331192422694678, 0.08765209300440377,
    0.09117387869576384, 0.09384439908080465, 0.09563872007927489, 0.09654008851472778,
    0.09654008851472778, 0.09563872007927489, 0.09384439908080465, 0.09117387869576384,
    0.08765209300440377, 0.08331192422694678, 0.07819389578707032, 0.07234579410884856,
    0.0658222227763618, 0.05868409347853548, 0.05099805926237615, 0.04283589802222672,
    0.03427386291302141, 0.025392065309262066, 0.016274394730905643, 0.007018610009470092]

/-- The points with their weights, as the loop of cmfd.cpp 147-167 takes them. -/
noncomputable def table : List (ℝ × ℝ) := (mu.zip w).map fun x => ((x.1 : ℝ), (x.2 : ℝ))

end Verif.Cmfd
