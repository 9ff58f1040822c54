import Verif.Props.Vector
import Verif.Props.Box
import Verif.Props.CHeap
import Verif.Props.XdmfData

/-! Statements on relocations (C03), scaled boxes (C24) and requests for memory (C153), numbers in files (C140) that need no helper of the model to be read. -/

namespace Verif.Vector

variable {α : Type}

/-- **C03**: `push_back` moves all elements exactly if it changes the capacity, and none otherwise; it changes it exactly for a full vector. -/
theorem C03_relocations (triv : Bool) {v v' : Vec α} {l : List α} (x : α) (hr : Rep v l) (hM : l.length < 2 ^ 30) (h : pushBack triv v (.ext x) = some v') :
    (pushRelocations v = if v'.capacity = v.capacity then 0 else l.length) ∧ (v'.capacity = v.capacity ↔ l.length < v.capacity) := by
  have hcap : v'.capacity = if v.size < v.capacity then v.capacity else max (2 * v.capacity) (v.size + 1) := by
    obtain ⟨k, rfl, hcap⟩ := hr.mk'
    unfold pushBack at h
    split_ifs at h ⊢ with hroom
    · simp only [argCell, Option.bind_eq_bind, Option.bind_some] at h
      cases hcon : construct (l.map Cell.live ++ List.replicate k .raw) l.length (.live x) with
      | none => simp [hcon] at h
      | some s =>
        simp only [hcon, Option.bind_some, Option.pure_def, Option.some.injEq] at h
        subst h
        unfold construct at hcon
        split at hcon
        · simp only [Option.some.injEq] at hcon
          subst hcon; simp [Vec.capacity]
        · simp at hcon
    · have hrec := recommend_spec (v := ⟨l.map .live ++ List.replicate k .raw, l.length⟩)
        (n := l.length + 1) (by simp only at hroom; omega)
        (by have : maxElems = 2 ^ 30 := rfl; omega)
      obtain ⟨temp, h5, h6, -⟩ := swapBuffers_spec triv l k
        (max (2 * Vec.capacity ⟨l.map Cell.live ++ List.replicate k .raw, l.length⟩)
          (l.length + 1)) (by omega)
      simp only [pushSlow, hrec, h5, h6, argCell, Option.bind_eq_bind, Option.bind_some] at h
      set n := max (2 * Vec.capacity ⟨l.map Cell.live ++ List.replicate k .raw, l.length⟩)
          (l.length + 1)
      cases hcon : construct (l.map Cell.live ++ List.replicate (n - l.length) .raw) l.length
          (.live x) with
      | none => simp [hcon] at h
      | some s =>
        simp only [hcon, Option.bind_some, Option.pure_def, Option.some.injEq] at h
        subst h
        unfold construct at hcon
        split at hcon
        · simp only [Option.some.injEq] at hcon
          subst hcon; simp [Vec.capacity]; omega
        · simp at hcon
  have hs := hr.1
  have hle := hr.le
  unfold pushRelocations
  rw [hcap, ← hs]
  split_ifs <;> omega

/-- A full vector and one with room. -/
example : Rep (⟨[.live 'a', .live 'b'], 2⟩ : Vec Char) ['a', 'b'] ∧ (pushBack true (⟨[.live 'a', .live 'b'], 2⟩ : Vec Char) (.ext 'c')).isSome ∧
    Rep (⟨[.live 'a', .raw], 1⟩ : Vec Char) ['a'] ∧ (pushBack false (⟨[.live 'a', .raw], 1⟩ : Vec Char) (.ext 'c')).isSome :=
  ⟨⟨rfl, rfl⟩, by decide +kernel, ⟨rfl, rfl⟩, by decide +kernel⟩

end Verif.Vector

namespace Verif.Box

/-- **C24**: the sides of a scaled box are `s` times as long, and its corners have the same mean. -/
theorem C24_scale_corners {D : Nat} {K : Type} [Field K] [LinearOrder K] [IsStrictOrderedRing K] (a : AABB D K) (s : K) (i : Fin D) :
    (scale a s).max i - (scale a s).min i = s * (a.max i - a.min i) ∧ (scale a s).max i + (scale a s).min i = a.max i + a.min i := by
  unfold scale extents
  dsimp only
  constructor
  · field_simp; ring
  · ring

/-- The box from 1 to 3, three times as large, goes from -1 to 5. -/
example : (scale far2 3).min 0 = -1 ∧ (scale far2 3).max 0 = 5 := by
  obtain ⟨h1, h2⟩ := C24_scale_corners far2 3 0
  simp only [far2] at h1 h2 ⊢
  constructor <;> linarith

end Verif.Box

namespace Verif.CHeapP

open Verif.CHeap
open Verif.XSLib (Res)

variable {M A : Type} {w : World M}

/-- **C153**: `um2Malloc` with a negative number of bytes asks for 2⁶⁴ more than that. -/
theorem C153_negative_size {cs : List (Call M A)} {as : List (Answer A)} {h : List (Block M)} (e : run w [] cs = .ok (h, as)) {size : ℤ} (hs : size < 0) (lo : -2 ^ 63 ≤ size) :
    ∃ h' q, run w [] (cs ++ [.malloc size]) = .ok (h', as ++ [.ptr q]) ∧ (q = none ↔ w.fits h.length (2 ^ 64 - size.natAbs) = false) ∧
      ∀ i, q = some i → h'[i]? = some (.bytes (2 ^ 64 - size.natAbs)) := by
  have ht : toSize size = 2 ^ 64 - size.natAbs := by
    unfold toSize
    omega
  have er : run w [] (cs ++ [.malloc size]) = .ok ((alloc w h (toSize size)).1, as ++ [.ptr (alloc w h (toSize size)).2]) := by
    rw [run_append, e]
    rfl
  refine ⟨_, _, er, ?_, ?_⟩
  · rw [ht]
    unfold alloc
    split <;> simp_all
  · rw [ht]
    unfold alloc
    intro i hi
    split at hi
    · rename_i c
      rw [if_pos c]
      cases hi
      simp
    · cases hi

/-- No bytes but one: refused where at most 1000 are there. -/
example : ∃ h' q, run (A := Unit) ⟨fun _ n => decide (n ≤ 1000), (), fun _ => .refused⟩ [] ([] ++ [Call.malloc (-1)]) = .ok (h', [] ++ [.ptr q]) ∧ q = none := by
  obtain ⟨h', q, h1, h2, -⟩ := C153_negative_size (A := Unit) (w := ⟨fun _ n => decide (n ≤ 1000), (), fun _ => .refused⟩) (cs := []) rfl (size := -1) (by norm_num) (by norm_num)
  exact ⟨h', q, h1, h2.2 (by decide)⟩

end Verif.CHeapP

namespace Verif.XData

/-- **C140**: four bytes with the sign `s`, the exponent `x` and the fraction `f` of single precision. -/
theorem C140_single {b0 b1 b2 b3 : UInt8} {s x f : ℕ} (hb : b0.toNat + 256 * b1.toNat + 65536 * b2.toNat + 16777216 * b3.toNat = s * 2 ^ 31 + x * 2 ^ 23 + f) (hs : s < 2) (hx : 0 < x) (hx' : x < 255) (hf : f < 2 ^ 23) :
    nativeFloat 4 [b0, b1, b2, b3] = some ((-1) ^ s * (1 + f / 2 ^ 23) * (2 : ℚ) ^ ((x : ℤ) - 127)) := by
  have e : ofBytes [b0, b1, b2, b3] = (s * 2 ^ 8 + x) * 2 ^ 23 + f := by
    simp only [ofBytes, List.map_cons, List.map_nil, Nat.ofDigits_cons, Nat.ofDigits_nil]
    omega
  unfold nativeFloat
  rw [if_pos rfl, e, (C140_bits (m := 23) (e := 8) (by norm_num) hs (by omega) hf).2.2 hx (by omega)]
  have z : ((x : ℤ) - (2 ^ (8 - 1) - 1 : ℤ) - (23 : ℕ)) = (x : ℤ) - 127 - 23 := by norm_num
  rw [z, zpow_sub₀ (two_ne_zero) _ (23 : ℤ)]
  congr 1
  norm_num
  ring

/-- **C140**: eight bytes with the sign `s`, the exponent `x` and the fraction `f` of double precision. -/
theorem C140_double {b0 b1 b2 b3 b4 b5 b6 b7 : UInt8} {s x f : ℕ}
    (hb : b0.toNat + 256 * b1.toNat + 256 ^ 2 * b2.toNat + 256 ^ 3 * b3.toNat + 256 ^ 4 * b4.toNat + 256 ^ 5 * b5.toNat + 256 ^ 6 * b6.toNat + 256 ^ 7 * b7.toNat = s * 2 ^ 63 + x * 2 ^ 52 + f)
    (hs : s < 2) (hx : 0 < x) (hx' : x < 2047) (hf : f < 2 ^ 52) :
    nativeFloat 8 [b0, b1, b2, b3, b4, b5, b6, b7] = some ((-1) ^ s * (1 + f / 2 ^ 52) * (2 : ℚ) ^ ((x : ℤ) - 1023)) := by
  have e : ofBytes [b0, b1, b2, b3, b4, b5, b6, b7] = (s * 2 ^ 11 + x) * 2 ^ 52 + f := by
    simp only [ofBytes, List.map_cons, List.map_nil, Nat.ofDigits_cons, Nat.ofDigits_nil]
    omega
  unfold nativeFloat
  rw [if_neg (by norm_num), e, (C140_bits (m := 52) (e := 11) (by norm_num) hs (by omega) hf).2.2 hx (by omega)]
  have z : ((x : ℤ) - (2 ^ (11 - 1) - 1 : ℤ) - (52 : ℕ)) = (x : ℤ) - 1023 - 52 := by norm_num
  rw [z, zpow_sub₀ (two_ne_zero) _ (52 : ℤ)]
  congr 1
  norm_num
  ring

/-- 1.5 in single and -2 in double precision. -/
example : nativeFloat 4 [0, 0, 0xC0, 0x3F] = some ((-1) ^ 0 * (1 + (2 ^ 22 : ℕ) / 2 ^ 23) * (2 : ℚ) ^ (((127 : ℕ) : ℤ) - 127)) ∧
    nativeFloat 8 [0, 0, 0, 0, 0, 0, 0, 0xC0] = some ((-1) ^ 1 * (1 + (0 : ℕ) / 2 ^ 52) * (2 : ℚ) ^ (((1024 : ℕ) : ℤ) - 1023)) :=
  ⟨C140_single (by decide) (by norm_num) (by norm_num) (by norm_num) (by norm_num), C140_double (by decide) (by norm_num) (by norm_num) (by norm_num) (by norm_num)⟩

end Verif.XData
