import Verif.Model.Nuclide
import Mathlib.Algebra.Order.Field.Basic
import Mathlib.Algebra.Order.Ring.Rat
import Mathlib.Data.Rat.Cast.Defs

/-!
# Material compositions

Model of `src/physics/material.cpp` 17-606: `addNuclide`, `addNuclideWt`, `addNuclidesAtomPercent`, `setUO2`.
Arithmetic is exact; a division by zero is `none`.  Errors are only logged.  `ASSERT`s are compiled out.
-/

namespace Verif.Phys

open Verif.Str (Byte)

/-- `n_avo_barn`, material.cpp 17. -/
def nAvo : ℚ := 0.602214076

/-- `ZAID_ATOMIC_MASS`, material.cpp 19-318. -/
def atomicMass : List (ℤ × ℚ) :=
  [(1001, 1.00783), (1002, 2.0141), (1003, 3.0155), (1006, 1.00783), (1040, 1.00783), (2003, 3.01493), (2004, 4.0026), (3006, 6.01507),
   (3007, 7.016), (4009, 9.0122), (5000, 10.811), (5010, 10.0129), (5011, 11.0093), (6000, 12.0011), (6001, 12.0011), (7014, 14.0031),
   (8001, 15.9973), (8016, 15.9949), (9019, 18.9982), (11023, 22.9895), (12000, 24.3051), (13027, 26.9815), (14000, 28.0859), (15031, 30.9741),
   (16000, 32.0643), (17000, 35.4527), (19000, 39.0986), (20000, 40.078), (22000, 47.8933), (23000, 50.9416), (24000, 51.9959), (24050, 49.9461),
   (24052, 51.9402), (24053, 52.9408), (24054, 53.9394), (25055, 54.938), (26000, 55.8447), (26054, 53.9394), (26056, 55.9345), (26057, 56.9351),
   (26058, 57.9337), (27059, 58.9332), (28000, 58.6936), (28058, 57.9357), (28060, 59.9308), (28061, 60.9314), (28062, 61.928), (28064, 63.9282),
   (29063, 62.9296), (29065, 64.9278), (35581, 80.9163), (36582, 81.9135), (36583, 82.9143), (36584, 83.9115), (36585, 84.9125), (36586, 85.9106),
   (38589, 88.9078), (38590, 89.9078), (39589, 88.9059), (39590, 89.9072), (39591, 90.9073), (40000, 91.2237), (40001, 91.2237), (40090, 89.9047),
   (40091, 90.9056), (40092, 91.905), (40094, 93.9063), (40096, 95.9083), (40591, 90.9056), (40593, 92.9064), (40595, 94.908), (40596, 95.9083),
   (41093, 92.9032), (41595, 94.9068), (42000, 95.9376), (42095, 94.9059), (42595, 94.9059), (42596, 95.9047), (42597, 96.906), (42598, 97.9054),
   (42599, 98.9077), (42600, 99.9073), (43599, 98.9077), (44600, 99.9041), (44601, 100.906), (44602, 101.905), (44603, 102.904), (44604, 103.903),
   (44605, 104.911), (44606, 105.907), (45103, 102.905), (45603, 102.904), (45605, 104.911), (46604, 103.904), (46605, 104.905), (46606, 105.903),
   (46607, 106.905), (46608, 107.904), (47107, 106.905), (47109, 108.905), (47609, 108.905), (47611, 110.906), (47710, 109.906), (48000, 112.411),
   (48110, 109.903), (48111, 110.904), (48112, 111.903), (48113, 112.9), (48114, 113.903), (48610, 109.903), (48611, 110.904), (48613, 112.9),
   (49000, 114.819), (49113, 112.904), (49115, 114.904), (49615, 114.904), (50000, 118.71), (50112, 111.904), (50114, 113.903), (50115, 114.903),
   (50116, 115.902), (50117, 116.903), (50118, 117.902), (50119, 118.903), (50120, 119.902), (50122, 121.903), (50124, 123.905), (50125, 124.908),
   (51000, 121.763), (51121, 120.909), (51123, 122.906), (51621, 120.909), (51625, 124.905), (51627, 126.907), (52632, 131.908), (52727, 126.905),
   (52729, 128.907), (53627, 126.904), (53629, 128.905), (53631, 130.906), (53635, 134.909), (54628, 127.903), (54630, 129.904), (54631, 130.906),
   (54632, 131.903), (54633, 132.906), (54634, 133.91), (54635, 134.907), (54636, 135.907), (55633, 132.906), (55634, 133.907), (55635, 134.906),
   (55636, 135.906), (55637, 136.907), (56634, 133.904), (56637, 136.906), (56640, 139.91), (57639, 138.903), (57640, 139.91), (58640, 139.905),
   (58641, 140.911), (58642, 141.909), (58643, 142.913), (58644, 143.914), (59641, 140.907), (59643, 142.911), (60642, 141.908), (60643, 142.91),
   (60644, 143.91), (60645, 144.913), (60646, 145.913), (60647, 146.916), (60648, 147.917), (60650, 149.921), (61647, 146.915), (61648, 147.917),
   (61649, 148.918), (61651, 150.922), (61748, 147.921), (62152, 151.92), (62153, 152.922), (62647, 146.915), (62648, 147.915), (62649, 148.917),
   (62650, 149.917), (62651, 150.919), (62652, 151.92), (62653, 152.922), (62654, 153.922), (63151, 150.916), (63152, 151.922), (63153, 152.922),
   (63154, 153.922), (63155, 154.921), (63156, 155.925), (63157, 156.925), (63651, 150.916), (63653, 152.922), (63654, 153.922), (63655, 154.921),
   (63656, 155.925), (63657, 156.925), (64152, 151.92), (64154, 153.921), (64155, 154.923), (64156, 155.923), (64157, 156.924), (64158, 157.924),
   (64160, 159.927), (64654, 153.921), (64655, 154.923), (64656, 155.923), (64657, 156.924), (64658, 157.924), (64660, 159.927), (65159, 158.925),
   (65160, 159.927), (65161, 160.928), (65659, 158.925), (65660, 159.927), (65661, 160.928), (66160, 159.925), (66161, 160.926), (66162, 161.927),
   (66163, 162.929), (66164, 163.929), (66660, 159.925), (66661, 160.926), (66662, 161.927), (66663, 162.929), (66664, 163.929), (67165, 164.93),
   (67665, 164.93), (68162, 161.929), (68164, 163.929), (68166, 165.93), (68167, 166.932), (68168, 167.93), (68170, 169.936), (71176, 175.941),
   (72174, 173.94), (72176, 175.941), (72177, 176.943), (72178, 177.944), (72179, 178.946), (72180, 179.947), (73181, 180.954), (73182, 181.95),
   (74000, 183.846), (74182, 181.953), (74183, 182.952), (74184, 183.95), (74186, 185.958), (77191, 190.96), (77193, 192.963), (79197, 196.966),
   (82206, 205.974), (82207, 206.976), (82208, 207.977), (83209, 208.98), (90230, 230.036), (90232, 232.038), (91231, 231.036), (91232, 232.038),
   (91233, 233.04), (91234, 234.043), (92232, 232.037), (92233, 233.04), (92234, 234.041), (92235, 235.044), (92236, 236.046), (92237, 237.049),
   (92238, 238.051), (93237, 237.048), (93238, 238.051), (93239, 239.053), (94236, 236.046), (94238, 238.049), (94239, 239.052), (94240, 240.054),
   (94241, 241.049), (94242, 242.058), (95241, 241.057), (95242, 242.059), (95243, 243.061), (95342, 242.059), (96242, 242.058), (96243, 243.061),
   (96244, 244.063), (96245, 245.065), (96246, 246.067), (96247, 247.071), (96248, 248.072), (97249, 249.08), (98249, 249.08), (98250, 250.076),
   (98251, 251.08), (98252, 252.082)]

/-- The parts of `Material` in use: `_density`, `_zaid`, `_num_density`. -/
structure Material where
  density : ℚ
  zaid : List ℤ
  num : List ℚ

/-- `addNuclide`, material.cpp 366-383: errors are logged, the nuclide is added all the same. -/
def addNuclide (m : Material) (zaid : ℤ) (n : ℚ) : Material := { m with zaid := m.zaid ++ [zaid], num := m.num ++ [n] }

/-- The first entry for `zaid`. -/
def massOf (zaid : ℤ) : Option ℚ := (atomicMass.find? fun p => p.1 == zaid).map (·.2)

/-- `addNuclideWt`, material.cpp 392-416: an unknown ZAID is logged and nothing is added. -/
def addNuclideWt (m : Material) (zaid : ℤ) (wt : ℚ) : Material :=
  match massOf zaid with
  | some a => addNuclide m zaid (wt * m.density * nAvo / a)
  | none => m

/-- The mean mass, material.cpp 434-451: a symbol without a mass is logged and left out. -/
def meanMass : List (ℤ × ℚ) → ℚ → ℚ
  | [], acc => acc
  | (z, p) :: l, acc =>
    match massOf z with
    | some a => meanMass l (acc + p * a)
    | none => meanMass l acc

/-- `addNuclidesAtomPercent`, material.cpp 425-457. -/
def addNuclidesAtomPercent (m : Material) (symbols : List (List Byte)) (percents : List ℚ) : Option Material := do
  if percents.length < symbols.length then none
  else do
    let zs ← symbols.mapM Nuclide.toZAID
    let l := zs.zip percents
    let mean := meanMass l 0
    if l ≠ [] ∧ mean = 0 then none
    else pure (l.foldl (fun m zp => addNuclide m zp.1 (zp.2 * m.density * nAvo / mean)) m)

/-! ### setUO2 -/

/-- Atomic masses, material.cpp 515-526. -/
def mU234 : ℚ := 234.040946
def mU235 : ℚ := 235.043923
def mU236 : ℚ := 236.045562
def mU238 : ℚ := 238.050783
def mO16 : ℚ := 15.9949146
def mGd152 : ℚ := 151.919786
def mGd154 : ℚ := 153.920861
def mGd155 : ℚ := 154.922618
def mGd156 : ℚ := 155.922118
def mGd157 : ℚ := 156.923956
def mGd158 : ℚ := 157.924019
def mGd160 : ℚ := 159.927049

/-- Natural abundances of gadolinium, material.cpp 530-536. -/
def abGd152 : ℚ := 0.2 / 100
def abGd154 : ℚ := 2.18 / 100
def abGd155 : ℚ := 14.8 / 100
def abGd156 : ℚ := 20.47 / 100
def abGd157 : ℚ := 15.65 / 100
def abGd158 : ℚ := 24.84 / 100
def abGd160 : ℚ := 21.86 / 100

/-- `setUO2`, material.cpp 497-606.  The average mass of uranium and the denominator of the atom fractions are the
same sum of quotients in a different order; when it is zero the code divides by zero. -/
def setUO2 (m : Material) (wtU235 wtGad : ℚ) : Option Material :=
  let wtU234 := 0.0089 * wtU235
  let wtU236 := 0.0046 * wtU235
  let wtU238 := 1 - (wtU234 + wtU235 + wtU236)
  let inv := wtU235 / mU235 + wtU234 / mU234 + wtU236 / mU236 + wtU238 / mU238
  let mU := 1 / inv
  let mUO2 := mU + 2 * mO16
  if inv = 0 ∨ mUO2 = 0 then none
  else
    let wtUO2 := 1 - wtGad
    let nUO2 := wtUO2 * m.density * nAvo / mUO2
    let nU := nUO2
    let nO := 2 * nUO2
    let denom := wtU234 / mU234 + wtU235 / mU235 + wtU236 / mU236 + wtU238 / mU238
    let m := addNuclide m 92234 (wtU234 / mU234 / denom * nU)
    let m := addNuclide m 92235 (wtU235 / mU235 / denom * nU)
    let m := addNuclide m 92236 (wtU236 / mU236 / denom * nU)
    let m := addNuclide m 92238 (wtU238 / mU238 / denom * nU)
    let mGad := abGd152 * mGd152 + abGd154 * mGd154 + abGd155 * mGd155 + abGd156 * mGd156 + abGd157 * mGd157 +
      abGd158 * mGd158 + abGd160 * mGd160
    let mGd2O3 := 2 * mGad + 3 * mO16
    let nGad := wtGad * m.density * nAvo / mGd2O3
    let nGd := 2 * nGad
    let nO := nO + 3 * nGad
    let m := if 0 < nGd then
        let m := addNuclide m 64152 (abGd152 * nGd)
        let m := addNuclide m 64154 (abGd154 * nGd)
        let m := addNuclide m 64155 (abGd155 * nGd)
        let m := addNuclide m 64156 (abGd156 * nGd)
        let m := addNuclide m 64157 (abGd157 * nGd)
        let m := addNuclide m 64158 (abGd158 * nGd)
        addNuclide m 64160 (abGd160 * nGd)
      else m
    some (addNuclide m 8016 nO)

end Verif.Phys
