import Verif.App.FfgenLemmas
import Verif.Function.IncrementalProps
import Verif.Function.IsingProps
import Verif.Function.MaximumProps
import Verif.Neighborhood.Props
import Verif.Tests.IncrementalModel
import Verif.Tests.SearchProps

/-!
# Property C100: the tests of incremental evaluation
-/

namespace Hnco.Tests

open Outcome

section
variable {K σ : Type} [DecidableEq K]

/-- Evaluation returns, and incremental evaluation returns the same, leaving the buffer as it was. -/
def BufferExact (n : Nat) (eval : BV → Outcome K) (inc : σ → BV → K → List Nat → Outcome (K × σ)) (buffer : σ) : Prop :=
  (∀ x : BV, x.length = n → ∃ v, eval x = ok v) ∧
  ∀ (x y : BV) (v : K) (flips : List Nat), x.length = n → y.length = n → flips.Pairwise (· < ·) → (∀ i ∈ flips, i < n) →
    (∀ (i : Nat) (b : Bool), x[i]? = some b → y[i]? = some (if i ∈ flips then !b else b)) → eval x = ok v →
    ∃ w, inc buffer x v flips = ok (w, buffer) ∧ eval y = ok w

theorem incrementalLoop_post {n : Nat} {eval : BV → Outcome K} {inc : σ → BV → K → List Nat → Outcome (K × σ)} {buffer : σ}
    (h : BufferExact n eval inc buffer) {k : Sampler} : ∀ (iterations : Nat) (s : Nbh), s.Ready k → s.n = n →
      Sim.Post (incrementalLoop eval inc k iterations s buffer) (fun b => b = true)
  | 0, _, _, _ => Sim.Post.pure rfl
  | iterations + 1, s, hs, hn => by
    have ho : s.origin.length = n := hs.origin.trans hn
    obtain ⟨v, hv⟩ := h.1 _ ho
    unfold incrementalLoop
    refine (Sim.Post.lift (P := fun a => a = v) ⟨v, hv, rfl⟩).bind fun v' hv' => ?_
    rw [hv']
    refine (propose_spec hs).bind fun t ht => ?_
    have hf := ht.flips
    rw [hn] at hf
    obtain ⟨w, h1, h2⟩ := h.2 s.origin t.candidate v t.flipped ho (ht.candidate.1.trans ho) hf.1 hf.2.1 ht.candidate.2 hv
    rw [← ht.origin] at h1
    refine (Sim.Post.lift ⟨w, h2, rfl⟩).bind fun w' hw => ?_
    subst hw
    refine (Sim.Post.lift ⟨_, h1, rfl⟩).bind fun r hr => ?_
    subst hr
    simp only [ne_eq, not_true_eq_false, if_false]
    refine (Sim.Post.lift (keep_spec hs ht)).bind fun u hu => ?_
    exact incrementalLoop_post h iterations u hu.1 (hu.2.1.trans hn)

theorem incrementalRun_post {n : Nat} {eval : BV → Outcome K} {inc : σ → BV → K → List Nat → Outcome (K × σ)} {buffer : σ}
    (h : BufferExact n eval inc buffer) {k : Sampler} (hk : k.Fits n) (iterations : Nat) :
    Sim.Post (incrementalRun eval inc buffer k n iterations) (fun b => b = true) := by
  unfold incrementalRun
  refine (Sim.Post.lift ((construct_ready k n).1 hk)).bind fun s hs => (bvRandomBits_post n).bind fun bv hbv => ?_
  exact incrementalLoop_post h iterations _ (hs.2.2 bv hbv).1 hs.1

/-- Same for a function which keeps nothing. -/
def FnExact (n : Nat) (f : Fn K) : Prop :=
  BufferExact n f.eval (fun (u : Unit) x v flips => do
    let w ← f.evalInc x v flips
    return (w, u)) ()

theorem fnExact {f : Fn K} {n : Nat} (hn : f.size = n) (h : IncrementalExact f)
    (hv : ∀ x : BV, x.length = n → ∃ v, f.eval x = ok v) : FnExact n f := by
  subst hn
  refine ⟨hv, fun x y v flips h1 h2 h3 h4 h5 h6 => ?_⟩
  obtain ⟨w, h7, h8⟩ := h.2 x y v flips h1 h2 h3 h4 h5 h6
  exact ⟨w, by simp only [h7, ok_bind]; rfl, h8⟩

end

theorem oneMax_exact (n : Nat) : FnExact n (oneMax n) := fnExact (f := oneMax n) rfl (oneMax_incremental n) fun x _ => ⟨_, oneMax_value n x⟩

theorem opposite_exact (n : Nat) : FnExact n (opposite (oneMax n)) := fnExact (f := opposite (oneMax n)) rfl (opposite_incremental _ (oneMax_incremental n))
  fun x _ => ⟨-(x.count true : Int), by simp [opposite, oneMax_value]⟩

theorem linear_exact (w : List Int) : FnExact (w.length) (linearFunction w) := fnExact (f := linearFunction w) rfl (linear_incremental w) fun x hx => by
  obtain ⟨n, hn⟩ : ∃ n, w.length = n := ⟨_, rfl⟩
  obtain ⟨w, rfl⟩ := exists_ofFn w hn
  rw [hn] at hx
  obtain ⟨x, rfl⟩ := exists_ofFn x hx
  exact ⟨_, linear_value _ _⟩

theorem walsh1_exact (w : List Int) : FnExact (w.length) (walshExpansion1 w) := fnExact (f := walshExpansion1 w) rfl (walsh1_incremental w) fun x hx => by
  obtain ⟨n, hn⟩ : ∃ n, w.length = n := ⟨_, rfl⟩
  obtain ⟨w, rfl⟩ := exists_ofFn w hn
  rw [hn] at hx
  obtain ⟨x, rfl⟩ := exists_ofFn x hx
  exact ⟨_, walsh1_value _ _⟩

theorem signedInt_exactly (bound : Nat) : Sim.Exactly (signedInt bound) (fun v => -(bound : Int) ≤ v ∧ v ≤ bound) := by
  refine ⟨(Sim.Post.uniformInt (Nat.zero_le _)).bind fun d hd => Sim.Post.pure ⟨by omega, by omega⟩, fun v hv => ?_⟩
  refine Sim.Reaches.bind (a := (v + bound).toNat) (Sim.Reaches.uniformInt (Nat.zero_le _) (by omega)) ?_
  have : v = ((v + bound).toNat : Int) - bound := by omega
  conv => rhs; rw [this]
  exact Sim.Reaches.pure _

/-- The test of incremental evaluation of `OneMax` never fails. -/
theorem incrementalOneMaxTest_succeeds (runs size iterations : Nat) (hs : 1 ≤ size) :
    Succeeds (incrementalOneMaxTest runs size iterations) :=
  succeeds_every ((Sim.Post.uniformInt hs).bind fun n hn => incrementalRun_post (k := defaultMutation) (oneMax_exact n) hn.1 iterations) runs

theorem incrementalSingleBitFlipTest_succeeds (runs size iterations : Nat) (hs : 1 ≤ size) :
    Succeeds (incrementalSingleBitFlipTest runs size iterations) :=
  succeeds_every ((Sim.Post.uniformInt hs).bind fun n hn => incrementalRun_post (k := .singleBitFlip) (oneMax_exact n) hn.1 iterations) runs

theorem incrementalHammingBallTest_succeeds (runs size iterations : Nat) (hs : 1 ≤ size) :
    Succeeds (incrementalHammingBallTest runs size iterations) :=
  succeeds_every ((Sim.Post.uniformInt hs).bind fun n hn => (Sim.Post.uniformInt hn.1).bind fun _ hr =>
    incrementalRun_post (k := .hammingBall _) (oneMax_exact n) ⟨hr.1, hr.2⟩ iterations) runs

theorem incrementalHammingSphereTest_succeeds (runs size iterations : Nat) (hs : 1 ≤ size) :
    Succeeds (incrementalHammingSphereTest runs size iterations) :=
  succeeds_every ((Sim.Post.uniformInt hs).bind fun n hn => (Sim.Post.uniformInt hn.1).bind fun _ hr =>
    incrementalRun_post (k := .hammingSphere _) (oneMax_exact n) ⟨hr.1, hr.2⟩ iterations) runs

theorem incrementalOppositeTest_succeeds (runs size iterations : Nat) (hs : 1 ≤ size) :
    Succeeds (incrementalOppositeTest runs size iterations) :=
  succeeds_every ((Sim.Post.uniformInt hs).bind fun n hn => incrementalRun_post (k := defaultMutation) (opposite_exact n) hn.1 iterations) runs

theorem incrementalLinearTest_succeeds (runs size bound iterations : Nat) (hs : 1 ≤ size) :
    Succeeds (incrementalLinearTest runs size bound iterations) := by
  refine succeeds_every ((Sim.Post.uniformInt hs).bind fun n hn => ?_) runs
  unfold linearGenerate
  rw [stdGenerate_unit]
  refine (vectorGenerate_exactly (signedInt_exactly bound) hn.1).1.bind fun w hw => ?_
  have := linear_exact w
  rw [hw.1] at this
  exact incrementalRun_post (k := defaultMutation) this hn.1 iterations

theorem incrementalWalsh1Test_succeeds (runs size bound iterations : Nat) (hs : 1 ≤ size) :
    Succeeds (incrementalWalsh1Test runs size bound iterations) := by
  refine succeeds_every ((Sim.Post.uniformInt hs).bind fun n hn => ?_) runs
  refine (vectorGenerate_exactly (signedInt_exactly bound) hn.1).1.bind fun w hw => ?_
  have := walsh1_exact w
  rw [hw.1] at this
  exact incrementalRun_post (k := defaultMutation) this hn.1 iterations

theorem ising1_exact {m : Ising1 Int} {n : Nat} (hn : 0 < n) (h1 : m.coupling.length = n) (h2 : m.field.length = n) :
    BufferExact n (ising1Eval m) (ising1Inc m) (List.replicate n false) :=
  ⟨fun x hx => ⟨_, ising1_value m n hn h1 h2 x hx⟩, ising1_incremental m n hn h1 h2⟩

theorem ising2_exact {m : Ising2 Int} {r c : Nat} (hr : 0 < r) (hc : 0 < c) (h1 : GridShape m.right r c)
    (h2 : GridShape m.below r c) (h3 : GridShape m.field r c) :
    BufferExact (r * c) (ising2Eval m) (ising2Inc m) (List.replicate (r * c) false) :=
  ⟨fun x hx => ⟨_, ising2_value m r c hr hc h1 h2 h3 x hx⟩, ising2_incremental m r c hr hc h1 h2 h3⟩

theorem incrementalIsing1Test_succeeds (runs size bound iterations : Nat) (hs : 1 ≤ size) :
    Succeeds (incrementalIsing1Test runs size bound iterations) := by
  refine succeeds_every ((Sim.Post.uniformInt hs).bind fun n hn => ?_) runs
  refine (ising1Generate_exactly (signedInt_exactly bound) (signedInt_exactly bound) hn.1).1.bind fun m hm => ?_
  refine Sim.Post.bernoulli.bind fun b _ => incrementalRun_post (k := defaultMutation) (ising1_exact hn.1 ?_ ?_) hn.1 iterations
  · cases b <;> exact hm.couplings
  · cases b <;> exact hm.fields

theorem incrementalIsing2Test_succeeds (runs rows columns bound iterations : Nat) (hr : 1 ≤ rows) (hc : 1 ≤ columns) :
    Succeeds (incrementalIsing2Test runs rows columns bound iterations) := by
  refine succeeds_every ((Sim.Post.uniformInt hr).bind fun r hr => (Sim.Post.uniformInt hc).bind fun c hc => ?_) runs
  refine (ising2Generate_exactly (signedInt_exactly bound) (signedInt_exactly bound) hr.1 hc.1).1.bind fun m hm => ?_
  refine Sim.Post.bernoulli.bind fun b _ => incrementalRun_post (k := defaultMutation) (ising2_exact hr.1 hc.1 ?_ ?_ ?_)
    (Nat.mul_pos hr.1 hc.1) iterations
  · cases b <;> exact hm.rights
  · cases b <;> exact hm.belows
  · cases b <;> exact hm.fields

end Hnco.Tests
