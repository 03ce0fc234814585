import Verif.Algorithm.PathLemmas
import Verif.Algorithm.HillClimbingProps

/-! # Lemmas on the search path of first ascent hill climbing -/

namespace Hnco

open Outcome

variable {K ι : Type}

theorem differingBits_cons (a b : Bool) (x y : BV) :
    differingBits (a :: x) (b :: y) = (if a != b then 1 else 0) + differingBits x y := by
  unfold differingBits
  rw [List.length_cons, List.range_succ_eq_map, List.filter_cons, List.filter_map, List.getElem?_cons_zero, List.getElem?_cons_zero]
  have h : (fun i => (a :: x)[i]? != (b :: y)[i]?) ∘ Nat.succ = fun i => x[i]? != y[i]? := by
    funext i
    simp
  rw [h]
  cases a <;> cases b <;> simp <;> omega

theorem differingBits_count : ∀ {x y : BV}, x.length = y.length →
    differingBits x y = (List.zipWith (fun a b => a != b) x y).count true
  | [], [], _ => rfl
  | a :: x, b :: y, h => by
    rw [differingBits_cons, List.zipWith_cons_cons, List.count_cons, differingBits_count (by simpa using h)]
    cases a <;> cases b <;> simp <;> omega

theorem differingBits_distance {x y : BV} {r : Nat} (h : bvHammingDistance x y = ok r) : differingBits x y = r := by
  have hl := hammingDistance_length h
  rw [bvHammingDistance_ok hl] at h
  cases h
  exact differingBits_count hl

/-- Between two iterations of first ascent hill climbing. -/
structure FirstAscentInv [LinearOrder K] (n : Nat) (V : ι → Prop) (cur : ι → BV) (r : Nat) (s : AlgState K (ClimbData ι)) :
    Prop where
  valid : V s.data.it
  current : s.lastIteration = false → cur s.data.it = s.solution.1
  path : HasPath (fun d => d = r) acceptBetter 1 s.calls s.solution

theorem firstAscentScan_path [LinearOrder K] {env : Env K} {n : Nat} {val : BV → K} (henv : env.Computes n val)
    {N : NbhIter ι} {V : ι → Prop} {cur : ι → BV} {r : Nat}
    (hN : N.Explores n V cur (fun x y => bvHammingDistance x y = ok r)) :
    ∀ (fuel : Nat) (l : List BV) (s : AlgState K (ClimbData ι)),
      Enumerates N.hasNext N.next s.data.it l → (∀ y ∈ l, y.length = n ∧ differingBits s.solution.1 y = r) → V s.data.it →
      HasPath (fun d => d = r) acceptBetter 1 s.calls s.solution →
      Alg.Holds (firstAscentScan env N fuel) s (fun _ => FirstAscentInv n V cur r)
        (fun t => HasPath (fun d => d = r) acceptBetter 1 t.calls t.solution)
  | 0, l, s, _, _, _, _ => fun _ => trivial
  | fuel + 1, l, s, hl, hnear, hV, hpath => by
    unfold firstAscentScan
    refine Alg.Holds.get_bind ?_
    cases hl with
    | done h =>
      rw [h]
      refine Alg.Holds.returns_bind (P := fun b => b = false) ⟨_, rfl, rfl⟩ ?_
      rintro _ rfl
      exact Alg.Holds.modify ⟨hV, fun h => (by cases h), hpath⟩
    | @step _ it' y l h1 h2 h3 =>
      obtain ⟨hV', hcur⟩ := hN.next _ _ _ hV h2
      obtain ⟨hy, hd⟩ := hnear y (List.mem_cons_self ..)
      refine Alg.Holds.returns_bind (P := fun b => b = true) ⟨_, h1, rfl⟩ ?_
      rintro _ rfl
      rw [if_pos rfl]
      refine Alg.Holds.returns_bind (P := fun b => b = (y, it')) ⟨_, h2, rfl⟩ ?_
      rintro _ rfl
      refine Alg.Holds.modify_bind ?_
      refine evaluate_bind henv hy (Alg.Holds.get_bind ?_) hpath
      split
      · rename_i hlt
        exact Alg.Holds.modify ⟨hV', fun _ => hcur, HasPath.move hpath hd (by unfold acceptBetter; simpa using hlt)⟩
      · rename_i hlt
        exact firstAscentScan_path henv hN fuel l
          { s with data := { s.data with it := it' }, calls := s.calls ++ [(y, val y)] } h3
          (fun z hz => hnear z (List.mem_cons_of_mem _ hz)) hV' (HasPath.stay hpath hd (by unfold acceptBetter; simpa using hlt))

theorem firstAscentMaximize_path [LinearOrder K] {env : Env K} {n : Nat} {val : BV → K} (henv : env.Computes n val)
    {N : NbhIter ι} {V : ι → Prop} {cur : ι → BV} {r : Nat}
    (hN : N.Explores n V cur (fun x y => bvHammingDistance x y = ok r)) {p : StartParams} (hp : p.startingPoint.length = n)
    {s : AlgState K (ClimbData ι)} (hs : s.solution.1.length = n) (hV : V s.data.it) (hcalls : s.calls = [])
    (numIterations : Int) (fuel scanFuel : Nat) :
    Alg.Holds (firstAscentMaximize env N p scanFuel numIterations fuel) s
      (fun _ t => HasPath (fun d => d = r) acceptBetter 1 t.calls t.solution)
      (fun t => t.calls = [] ∨ HasPath (fun d => d = r) acceptBetter 1 t.calls t.solution) := by
  refine (algLoop_holds (FirstAscentInv n V cur r) (fun t => t.calls = [] ∨
    HasPath (fun d => d = r) acceptBetter 1 t.calls t.solution) ?_ ?_ _ _).mono (fun _ _ h => h.path) (fun _ h => h)
  · intro t ht hl
    obtain ⟨l, h1, _, h3⟩ := hN.enum _ ht.valid
    rw [ht.current hl] at h3
    unfold firstAscentIterate
    refine Alg.Holds.modify_bind ((firstAscentScan_path henv hN scanFuel l
      { t with data := { t.data with it := N.init t.data.it } } h1 ?_ (hN.init _ ht.valid) ht.path).mono
      (fun _ _ h => h) (fun _ h => Or.inr h))
    intro y hy
    obtain ⟨h4, h5⟩ := (h3 y).mp hy
    exact ⟨h4, differingBits_distance h5⟩
  · unfold climbInit
    refine Alg.Holds.bind (P := fun _ t => ∃ x : BV, x.length = n ∧
      t = { s with solution := (x, val x), calls := s.calls ++ [(x, val x)] })
      (initSolution_holds henv hp hs (fun x hx => ⟨x, hx, rfl⟩) (fun x hx => Or.inl hcalls)) ?_
    rintro _ _ ⟨x, hx, rfl⟩
    refine Alg.Holds.get_bind (Alg.Holds.returns_bind (hN.setOrigin _ x hV hx) ?_)
    rintro it ⟨h1, h2⟩
    refine Alg.Holds.modify ⟨h1, fun _ => h2, ?_⟩
    simp only [hcalls]
    exact HasPath.first _

end Hnco
