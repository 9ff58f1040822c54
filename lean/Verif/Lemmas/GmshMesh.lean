import Verif.Model.GmshMesh

/-! Lemmas on the Gmsh session. -/

namespace Verif.GmshMesh

open Verif.XSLib (Res)

theorem run_append (d : Opt → ℤ) (a b : Bool) (xs ys : List Call) (s : St) :
    run d a b (xs ++ ys) s = Res.bind (run d a b xs s) (run d a b ys) := by
  induction xs generalizing s with
  | nil => rfl
  | cons c cs ih =>
    simp only [List.cons_append, run]
    cases step d a b s c with
    | undef => rfl
    | refused => rfl
    | ok s' => exact ih s'

/-! ## Specification -/

/-- Since the session was opened a mesh of quadrilaterals has been asked for. -/
def askedQuads : List Call → Prop
  | [] => False
  | c :: cs => askedQuads cs ∨
      ((∃ n, c = .mesh .quad n ∨ c = .mesh .quadraticQuad n) ∧ ∀ c' ∈ cs, c' ≠ .stop)

/-! ## Lemmas -/

/-- The options after a request. -/
theorem generateMesh_opt {t : MeshType} {n : ℤ} {s s' : St} (h : generateMesh t n s = .ok s') :
    s.up = true ∧ s'.up = true ∧
    s'.opt .recombineAll = (if t = .quad ∨ t = .quadraticQuad then 1 else s.opt .recombineAll) ∧
    s'.opt .subdivisionAlgorithm = (if t = .quad then 1 else s.opt .subdivisionAlgorithm) := by
  have hu : s.up = true := by
    by_contra hc
    rw [Bool.not_eq_true] at hc
    simp [generateMesh, setNumber, hc, Res.bind] at h
  cases t <;>
    simp only [generateMesh, setNumber, generate, setOrder, hu, if_true, Res.bind, error] at h <;>
    first
      | (cases h; simp [hu])
      | (split at h <;> cases h; simp [hu])

theorem flag_eq (A Q R q S : Prop) : ((A ∨ (Q ∧ R)) ∨ (q ∧ S ∧ R)) ↔ (A ∨ ((Q ∨ (q ∧ S)) ∧ R)) := by
  by_cases R <;> simp [*, or_assoc]

/-- After the calls the two options are as by default exactly if no quadrilaterals were asked for; `q`: they were before. -/
theorem run_flag {d : Opt → ℤ} (d1 : d .recombineAll = 0) (d2 : d .subdivisionAlgorithm = 0) {a b : Bool}
    (cs : List Call) (s s' : St) (q : Prop)
    (hq : (s.up = false → ¬ q) ∧
      (s.up = true → ((s.opt .recombineAll = 0 ∧ s.opt .subdivisionAlgorithm ≠ 1) ↔ ¬ q)))
    (h : run d a b cs s = .ok s') :
    (s'.up = false → ¬ (askedQuads cs ∨ (q ∧ ∀ c ∈ cs, c ≠ .stop))) ∧
    (s'.up = true → ((s'.opt .recombineAll = 0 ∧ s'.opt .subdivisionAlgorithm ≠ 1) ↔
      ¬ (askedQuads cs ∨ (q ∧ ∀ c ∈ cs, c ≠ .stop)))) := by
  induction cs generalizing s q with
  | nil =>
    simp only [run, Res.ok.injEq] at h
    subst h
    simpa [askedQuads] using hq
  | cons c cs ih =>
    rw [run] at h
    cases e : step d a b s c with
    | undef => rw [e] at h; cases h
    | refused => rw [e] at h; cases h
    | ok s1 =>
      rw [e] at h
      have h1 := ih s1 ((∃ n, c = .mesh .quad n ∨ c = .mesh .quadraticQuad n) ∨ (q ∧ c ≠ .stop)) ?_ h
      · have eq : (askedQuads (c :: cs) ∨ (q ∧ ∀ c' ∈ c :: cs, c' ≠ .stop)) ↔
            (askedQuads cs ∨ (((∃ n, c = .mesh .quad n ∨ c = .mesh .quadraticQuad n) ∨ (q ∧ c ≠ .stop)) ∧
              ∀ c' ∈ cs, c' ≠ .stop)) := by
          simp only [askedQuads, List.mem_cons, forall_eq_or_imp]
          exact flag_eq _ _ _ _ _
        rw [eq]
        exact h1
      · cases c with
        | start =>
          simp only [step, umInitialize] at e
          rcases hu : s.up with - | -
          · simp only [hu, setNumber, Res.bind, if_true, Bool.false_eq_true, if_false, Res.ok.injEq] at e
            subst e
            have := hq.1 hu
            simp [this, d1, d2]
          · simp only [hu, if_true, Res.ok.injEq] at e
            subst e
            simpa [hu] using hq
        | stop =>
          simp only [step, umFinalize, Res.ok.injEq] at e
          subst e
          rcases hu : s.up with - | - <;> simp [hu]
        | settings l =>
          simp only [step, Res.ok.injEq] at e
          subst e
          simpa using hq
        | point p =>
          simp only [step, addPoint] at e
          split at e
          · cases e
            simpa using hq
          · cases e
        | size x =>
          simp only [step, setGlobalMeshSize] at e
          split at e
          · cases e
            simpa using hq
          · cases e
        | mesh t n =>
          simp only [step] at e
          obtain ⟨hu, hu', o1, o2⟩ := generateMesh_opt e
          have hq := hq.2 hu
          refine ⟨fun x => by simp [hu'] at x, fun _ => ?_⟩
          rw [o1, o2]
          cases t <;> simp [hq]

end Verif.GmshMesh
