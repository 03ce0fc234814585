import Verif.Map.Sampling
import Verif.Function.Spec
import Mathlib.Order.Basic

/-! # Composition of functions and maps (C21) -/

namespace Hnco

open Outcome

/-- C21: the constructor accepts a function and a map exactly when their sizes match. -/
theorem functionMapNew_iff {K : Type} (f : Fn K) (m : MapObj) :
    (m.outputSize = f.size → functionMapNew f m = ok (List.replicate f.size false)) ∧
    (m.outputSize ≠ f.size → functionMapNew f m = .throw .runtimeError) := by
  constructor <;> intro h <;> simp [functionMapNew, h]

/-- C21: the composition has a known maximum exactly when the function has one and the map says it is
surjective; asking for an unknown maximum is an exception. -/
theorem functionMapMaximum_cases {K : Type} (f : Fn K) (m : MapObj) (s : Bool)
    (hs : m.isSurjective = ok s) :
    functionMapHasMax f m = ok (f.hasMax && s) ∧
    functionMapMaximum f m = if f.hasMax && s then f.maximum else .throw .runtimeError := by
  unfold functionMapMaximum functionMapHasMax
  cases f.hasMax <;> cases s <;> simp [hs]

/-- C21: composing a function, the declared maximum of which is right, with a map, the surjectivity
test of which is right, gives a function the declared maximum of which is right, whatever the contents
of the internal buffer. -/
theorem functionMap_maximum {K : Type} [LE K] (f : Fn K) (m : MapObj) (g : BV → BV) (M : K)
    (hnew : ∃ b, functionMapNew f m = ok b)
    (hm : MapSpec.Computes m.map m.inputSize m.outputSize g)
    (hs : m.isSurjective = ok true → MapSpec.Surjective m.inputSize m.outputSize g)
    (hf : ∀ v, f.hasMax = true → f.maximum = ok v → IsMaximum f.size f.eval v)
    (hM : functionMapMaximum f m = ok M) (o : BV) (ho : o.length = f.size) :
    IsMaximum m.inputSize (fun x => do
      let r ← functionMapEvaluate f m o x
      return r.1) M := by
  obtain ⟨_, hnew⟩ := hnew
  have hsize : m.outputSize = f.size := by
    by_contra h
    rw [(functionMapNew_iff f m).2 h] at hnew
    cases hnew
  have heval : ∀ x : BV, x.length = m.inputSize →
      (do let r ← functionMapEvaluate f m o x
          return r.1) = f.eval (g x) ∧ (g x).length = f.size := by
    intro x hx
    obtain ⟨e, hl⟩ := hm x o hx (by omega)
    refine ⟨?_, by omega⟩
    simp only [functionMapEvaluate, e, ok_bind]
    cases f.eval (g x) <;> rfl
  have hb : functionMapHasMax f m = ok true := by
    unfold functionMapMaximum at hM
    cases h : functionMapHasMax f m with
    | ok b => cases b with
      | true => rfl
      | false => rw [h] at hM; simp at hM
    | throw e => rw [h] at hM; simp at hM
    | ub => rw [h] at hM; simp at hM
  have hmax : f.hasMax = true ∧ m.isSurjective = ok true := by
    unfold functionMapHasMax at hb
    cases h : f.hasMax with
    | true => rw [h] at hb; exact ⟨rfl, by simpa using hb⟩
    | false => rw [h] at hb; simp at hb
  have hfm : f.maximum = ok M := by
    unfold functionMapMaximum at hM
    rw [hb] at hM
    simpa using hM
  obtain ⟨h1, y, hy, hyM⟩ := hf M hmax.1 hfm
  constructor
  · intro x hx
    obtain ⟨e, hl⟩ := heval x hx
    obtain ⟨v, hv, hle⟩ := h1 _ hl
    exact ⟨v, e.trans hv, hle⟩
  · obtain ⟨x, hx, hxy⟩ := hs hmax.2 y (by omega)
    refine ⟨x, hx, ?_⟩
    exact (heval x hx).1.trans (by rw [hxy, hyM])

/-- `LinearMap` as a map object (`map.hh:247-321`).  Simplification: the dimensions, read off the matrix by
the code, are arguments. -/
def linearObj (bm : BM) (rows cols : Nat) : MapObj where
  inputSize := cols
  outputSize := rows
  map := linearMap bm
  isSurjective := linearIsSurjective bm

/-- C21: the hypotheses of `functionMap_maximum` hold for every linear map. -/
theorem linearObj_meets (M : BM) (n m : Nat) (hn : 0 < n) (hm : 0 < m) (hM : F2.HasShape n m M) :
    MapSpec.Computes (linearObj M n m).map m n (F2.mulVec M) ∧
    ((linearObj M n m).isSurjective = ok true → MapSpec.Surjective m n (F2.mulVec M)) := by
  refine ⟨linearMap_spec n m hn hm M hM, ?_⟩
  intro h
  obtain ⟨b, e, hb⟩ := linearIsSurjective_ok n m hn M hM
  have : b = true := by
    have h' : linearIsSurjective M = ok true := h
    rw [e] at h'; simpa using h'
  exact hb.mp this

/-- A case that meets the hypotheses: number of ones, composed with the sum of neighbouring bits. -/
example : ∃ (f : Fn Nat) (m : MapObj) (g : BV → BV),
    (∃ b, functionMapNew f m = ok b) ∧ MapSpec.Computes m.map m.inputSize m.outputSize g ∧
    (m.isSurjective = ok true → MapSpec.Surjective m.inputSize m.outputSize g) ∧
    (∀ v, f.hasMax = true → f.maximum = ok v → IsMaximum f.size f.eval v) ∧
    functionMapMaximum f m = ok 2 := by
  have hM : F2.HasShape 2 3 [[true, true, false], [false, true, true]] := by simp [F2.HasShape]
  have h := linearObj_meets _ 2 3 (by decide) (by decide) hM
  refine ⟨⟨2, true, ok 2, fun x => ok (x.count true), false, fun _ _ _ => ub⟩,
    linearObj [[true, true, false], [false, true, true]] 2 3, _, ⟨_, rfl⟩, h.1, h.2, ?_, by decide⟩
  rintro v - hv
  have : v = 2 := by simpa using hv.symm
  subst this
  refine ⟨fun x hx => ⟨_, rfl, ?_⟩, [true, true], rfl, rfl⟩
  exact le_trans List.count_le_length (by simp at hx; omega)

/-- C21: the composition of two maps applies the inner one first, whatever the contents of the
intermediate buffer. -/
theorem mapComposition_computes (outer inner : MapObj) (g h : BV → BV) (buffer : BV)
    (hsize : outer.inputSize = inner.outputSize) (hb : buffer.length = inner.outputSize)
    (hi : MapSpec.Computes inner.map inner.inputSize inner.outputSize g)
    (ho : MapSpec.Computes outer.map outer.inputSize outer.outputSize h) :
    MapSpec.Computes (mapComposition outer inner buffer).map inner.inputSize outer.outputSize
      (fun x => h (g x)) := by
  intro x o hx hol
  obtain ⟨e1, l1⟩ := hi x buffer hx hb
  obtain ⟨e2, l2⟩ := ho (g x) o (by omega) hol
  refine ⟨?_, l2⟩
  simp only [mapComposition, e1, ok_bind, e2]

/-- C21: the composition says it is surjective exactly when both maps do, and is then right if both
are. -/
theorem mapComposition_surjective (outer inner : MapObj) (g h : BV → BV) (buffer : BV) (so si : Bool)
    (hsize : outer.inputSize = inner.outputSize)
    (hso : outer.isSurjective = ok so) (hsi : inner.isSurjective = ok si)
    (hg : si = true → MapSpec.Surjective inner.inputSize inner.outputSize g)
    (hh : so = true → MapSpec.Surjective outer.inputSize outer.outputSize h) :
    (mapComposition outer inner buffer).isSurjective = ok (so && si) ∧
    ((so && si) = true → MapSpec.Surjective inner.inputSize outer.outputSize (fun x => h (g x))) := by
  constructor
  · cases so <;> simp [mapComposition, hso, hsi]
  · intro hb
    rw [Bool.and_eq_true] at hb
    intro y hy
    obtain ⟨z, hz, rfl⟩ := hh hb.1 y hy
    obtain ⟨x, hx, rfl⟩ := hg hb.2 z (by omega)
    exact ⟨x, hx, rfl⟩

example : ∃ so si, (linearObj [[true, true]] 1 2).isSurjective = ok so ∧
    (linearObj [[true, false], [true, true]] 2 2).isSurjective = ok si ∧ (so && si) = true :=
  ⟨true, true, by decide, by decide, rfl⟩

/-- C21: the negated function evaluates to the opposite of the function, and has no declared
maximum. -/
theorem opposite_spec {K : Type} [Neg K] (f : Fn K) :
    (opposite f).hasMax = false ∧ (opposite f).maximum = .throw .runtimeError ∧
    (opposite f).size = f.size ∧
    ∀ x v, f.eval x = ok v → (opposite f).eval x = ok (-v) := by
  refine ⟨rfl, rfl, rfl, ?_⟩
  intro x v h
  simp [opposite, h]

/-- `Injection` as a map object (`map.hh:492-540`). -/
def injectionObj (positions : List Nat) (outputSize : Nat) : MapObj where
  inputSize := positions.length
  outputSize := outputSize
  map := injectionMap positions outputSize
  isSurjective := ok (injectionIsSurjective positions outputSize)

/-- The buffer of a composition after evaluating the vectors of a list one after the other. -/
def functionMapHistory {K : Type} (f : Fn K) (m : MapObj) (output : BV) : List BV → Outcome BV
  | [] => ok output
  | x :: xs => do
    let r ← functionMapEvaluate f m output x
    functionMapHistory f m r.2 xs

/-- C21: although an injection leaves part of its output untouched, its composition with a function is
deterministic: after any history of evaluations, a vector gets the value it would have got at
first. -/
theorem functionMap_injection_deterministic {K : Type} (f : Fn K) (ps : List Nat)
    (hps : Positions ps f.size) (hist : List BV) (hh : ∀ y ∈ hist, y.length = ps.length) (o0 o x : BV)
    (hx : x.length = ps.length) (hnew : functionMapNew f (injectionObj ps f.size) = ok o0)
    (hrun : functionMapHistory f (injectionObj ps f.size) o0 hist = ok o) :
    functionMapEvaluate f (injectionObj ps f.size) o x
      = functionMapEvaluate f (injectionObj ps f.size) o0 x := by
  have h0 : o0.length = f.size := by
    rw [(functionMapNew_iff f (injectionObj ps f.size)).1 rfl] at hnew
    simp only [Outcome.ok.injEq] at hnew
    rw [← hnew]; simp
  clear hnew
  have key : ∀ (hist : List BV) (o1 : BV), (∀ y ∈ hist, y.length = ps.length) →
      o1.length = f.size → (∀ (p : Nat), p ∉ ps → o1[p]? = o0[p]?) →
      functionMapHistory f (injectionObj ps f.size) o1 hist = ok o →
      o.length = f.size ∧ ∀ (p : Nat), p ∉ ps → o[p]? = o0[p]? := by
    intro hist
    induction hist with
    | nil =>
      intro o1 _ hl ho hr
      simp only [functionMapHistory, Outcome.ok.injEq] at hr
      subst hr
      exact ⟨hl, ho⟩
    | cons y hist ih =>
      intro o1 hy hl ho hr
      obtain ⟨r, e, h1, _, h3⟩ := injectionMap_ok hps (hy y (by simp)) hl
      simp only [functionMapHistory, functionMapEvaluate, injectionObj, e, ok_bind] at hr
      cases hv : f.eval r with
      | ok v =>
        rw [hv] at hr
        simp only [ok_bind, pure_eq] at hr
        exact ih r (fun z hz => hy z (by simp [hz])) h1
          (fun p hp => by rw [h3 p hp, ho p hp]) hr
      | throw e => rw [hv] at hr; simp at hr
      | ub => rw [hv] at hr; simp at hr
  obtain ⟨hl, ho⟩ := key hist o0 hh h0 (fun _ _ => rfl) hrun
  obtain ⟨r, e, h1, h2, h3⟩ := injectionMap_ok hps hx hl
  obtain ⟨r', e', h1', h2', h3'⟩ := injectionMap_ok hps hx h0
  have hrr : r = r' := by
    apply List.ext_getElem?
    intro p
    by_cases hp : p ∈ ps
    · obtain ⟨i, hi⟩ := List.getElem?_of_mem hp
      rw [h2 i p hi, h2' i p hi]
    · rw [h3 p hp, h3' p hp, ho p hp]
  simp only [functionMapEvaluate, injectionObj, e, e', hrr]

example : Positions [2, 0] 3 := by simp [Positions]

end Hnco
