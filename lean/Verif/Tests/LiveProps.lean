import Verif.Tests.IncrementalProps
import Verif.Tests.IteratorProps
import Verif.Tests.LiveLemmas

/-!
# Test programs which draw again until a condition holds can always end with the status 0 (C97, C99, C100)
-/

namespace Hnco.Tests

open Outcome

set_option maxRecDepth 100000

/-! ## Bit matrices and maps (C97) -/

/-- C97: whatever the test of `bm_multiply` has drawn, it has ended with the status 0, or can still do so. -/
theorem bmMultiplyTest_lives (runs dim : Nat) (hd : 1 ≤ dim) : Lives (bmMultiplyTest runs dim) :=
  lives_every (bmMultiplyTest_succeeds runs dim hd) ((Sim.Flows.uniformInt _ _).bindP (Sim.Post.uniformInt hd).toOk fun n hn =>
    (drawInvertible_flows hn.1).bind fun _ => (bvRandomBits_flows n).bind fun _ => (Sim.Flows.lift _).bind fun _ =>
      (Sim.Flows.lift _).bind fun _ => Sim.Flows.pure _)

example : Lives (bmMultiplyTest 100 100) := bmMultiplyTest_lives _ _ (by norm_num)

/-- C97: whatever the test of `bm_add_rows` has drawn, it has ended with the status 0, or can still do so. -/
theorem bmAddRowsTest_lives (runs dim : Nat) (hd : 2 ≤ dim) : Lives (bmAddRowsTest runs dim) :=
  lives_every (bmAddRowsTest_succeeds runs dim hd) ((Sim.Flows.uniformInt _ _).bindP (Sim.Post.uniformInt hd).toOk fun n hn =>
    (bmRandom_flows n n).bind fun _ => (drawDistinct_flows hn.1).bind fun _ => (Sim.Flows.lift _).bind fun _ =>
      (Sim.Flows.lift _).bind fun _ => Sim.Flows.pure _)

example : Lives (bmAddRowsTest 1000 100) := bmAddRowsTest_lives _ _ (by norm_num)

/-- C97: whatever the test of `bm_add_columns` has drawn, it has ended with the status 0, or can still do so. -/
theorem bmAddColumnsTest_lives (runs dim : Nat) (hd : 2 ≤ dim) : Lives (bmAddColumnsTest runs dim) :=
  lives_every (bmAddColumnsTest_succeeds runs dim hd) ((Sim.Flows.uniformInt _ _).bindP (Sim.Post.uniformInt hd).toOk fun n hn =>
    (bmRandom_flows n n).bind fun _ => (drawDistinct_flows hn.1).bind fun _ => (Sim.Flows.lift _).bind fun _ =>
      (Sim.Flows.lift _).bind fun _ => Sim.Flows.pure _)

example : Lives (bmAddColumnsTest 1000 100) := bmAddColumnsTest_lives _ _ (by norm_num)

/-- C97: whatever the test of `bm_solve` has drawn, it has ended with the status 0, or can still do so. -/
theorem bmSolveTest_lives (runs dim : Nat) (hd : 1 ≤ dim) : Lives (bmSolveTest runs dim) :=
  lives_every (bmSolveTest_succeeds runs dim hd) ((Sim.Flows.uniformInt _ _).bindP (Sim.Post.uniformInt hd).toOk fun n hn =>
    (drawInvertible_flows hn.1).bind fun _ => (Sim.Flows.lift _).bind fun _ => Sim.Flows.ite ((bvRandomBits_flows n).bind fun _ =>
      (Sim.Flows.lift _).bind fun _ => (Sim.Flows.lift _).bind fun _ => Sim.Flows.pure _) (Sim.Flows.pure _))

example : Lives (bmSolveTest 100 100) := bmSolveTest_lives _ _ (by norm_num)

/-- C97: whatever the test of `bm_invert` has drawn, it has ended with the status 0, or can still do so. -/
theorem bmInvertTest_lives (runs dim : Nat) (hd : 1 ≤ dim) : Lives (bmInvertTest runs dim) :=
  lives_every (bmInvertTest_succeeds runs dim hd) ((Sim.Flows.uniformInt _ _).bindP (Sim.Post.uniformInt hd).toOk fun n hn =>
    (drawInvertible_flows hn.1).bind fun _ => (Sim.Flows.lift _).bind fun _ => Sim.Flows.pure _)

example : Lives (bmInvertTest 100 100) ∧ exitStatus (bmInvertTest 1 2) [1, 0, 0, 0, 0, 1, 0, 0, 1] = .ok 0 [] :=
  ⟨bmInvertTest_lives _ _ (by norm_num), by decide +kernel⟩

/-- C97: whatever the test that a transvection undoes itself has drawn, it has ended with the status 0, or can still do so. -/
theorem transvectionTest_lives (runs inner dim : Nat) (hd : 2 ≤ dim) : Lives (transvectionTest runs inner dim) :=
  lives_every (transvectionTest_succeeds runs inner dim hd) ((Sim.Flows.uniformInt _ _).bindP (Sim.Post.uniformInt hd).toOk
    fun n hn => (tvRandom_flows hn.1).bind fun _ => Sim.Flows.ite (every_flows ((bvRandomBits_flows n).bind fun _ =>
      (Sim.Flows.lift _).bind fun _ => (Sim.Flows.lift _).bind fun _ => Sim.Flows.pure _) _) (Sim.Flows.pure _))

example : Lives (transvectionTest 10 10 20) := transvectionTest_lives _ _ _ (by norm_num)

/-- C97: whatever the test that a sequence of transvections and its matrix agree has drawn, it has ended with the status 0, or can
still do so. -/
theorem tsMultiplyTest_lives (runs inner dim len : Nat) (hd : 2 ≤ dim) : Lives (tsMultiplyTest runs inner dim len) :=
  lives_every (tsMultiplyTest_succeeds runs inner dim len hd) ((Sim.Flows.uniformInt _ _).bindP (Sim.Post.uniformInt hd).toOk
    fun n hn => (Sim.Flows.uniformInt _ _).bind fun t => (tsRandom_flows hn.1 [] t).bind fun _ => (Sim.Flows.lift _).bind fun _ =>
      (Sim.Flows.lift _).bind fun _ => every_flows ((bvRandomBits_flows n).bind fun _ => (Sim.Flows.lift _).bind fun _ =>
        (Sim.Flows.lift _).bind fun _ => Sim.Flows.pure _) _)

example : Lives (tsMultiplyTest 10 10 10 10) := tsMultiplyTest_lives _ _ _ _ (by norm_num)

/-- C97: whatever the test that the neighbours in the sequence drawn do not commute has drawn, it has ended with the status 0, or
can still do so. -/
theorem tsNonCommutingTest_lives (runs dim : Nat) (hd : 2 ≤ dim) : Lives (tsNonCommutingTest runs dim) :=
  lives_every (tsNonCommutingTest_succeeds runs dim hd) ((Sim.Flows.uniformInt _ _).bindP (Sim.Post.uniformInt hd).toOk fun n hn =>
    (tsRandomNonCommuting_flows hn.1 [] _).bind fun _ => Sim.Flows.lift _)

example : Lives (tsNonCommutingTest 10 200) := tsNonCommutingTest_lives _ _ (by norm_num)

/-- C97: whatever the test that the inverse of an affine map undoes it has drawn, it has ended with the status 0, or can still do
so. -/
theorem tsAffineInvertTest_lives (runs inner dim len : Nat) (hd : 2 ≤ dim) : Lives (tsAffineInvertTest runs inner dim len) :=
  lives_every (tsAffineInvertTest_succeeds runs inner dim len hd) ((Sim.Flows.uniformInt _ _).bindP (Sim.Post.uniformInt hd).toOk
    fun n hn => (Sim.Flows.uniformInt _ _).bind fun t => (tsAffineRandom_flows hn.1 _ t).bind fun _ => (Sim.Flows.lift _).bind fun _ =>
      every_flows ((bvRandomBits_flows n).bind fun _ => (Sim.Flows.lift _).bind fun _ => (Sim.Flows.lift _).bind fun _ =>
        Sim.Flows.pure _) _)

example : Lives (tsAffineInvertTest 100 10 1000 1000) := tsAffineInvertTest_lives _ _ _ _ (by norm_num)

/-! ## The Hamming sphere (C99) -/

/-- C99: whatever the test of the neighbourhood which samples a Hamming sphere has drawn, it has ended with the status 0, or can
still do so. -/
theorem hammingSphereTest_lives (runs size : Nat) (hs : 1 ≤ size) : Lives (hammingSphereTest runs size) := by
  refine lives_every (hammingSphereTest_succeeds runs size hs) ?_
  refine Sim.Flows.bindP (P := fun p : Nat × Nat => 1 ≤ p.2 ∧ p.2 ≤ p.1) (Sim.Flows.repeatUntil ((Sim.Flows.uniformInt _ _).bind
    fun _ => (Sim.Flows.uniformInt _ _).bind fun _ => Sim.Flows.pure _) (Sim.Flows.bind_out (Sim.Flows.uniformInt_nil hs))
    ⟨(1, 1), ?_, rfl⟩) ?_ fun p hp => (Sim.Flows.lift _).bind fun _ => ?_
  · exact Sim.Reaches.bind (Sim.Reaches.uniformInt (le_refl _) hs) (Sim.Reaches.bind (Sim.Reaches.uniformInt (le_refl _) hs)
      (Sim.Reaches.pure _))
  · refine Sim.Post.toOk ((Sim.Post.repeatUntil (P := fun p : Nat × Nat => 1 ≤ p.2) ?_).mono fun p h => ⟨h.1, by simpa using h.2⟩)
    exact (Sim.Post.uniformInt hs).bind fun n _ => (Sim.Post.uniformInt hs).bind fun r hr => Sim.Post.pure hr.1
  · refine (bvRandomBits_flows _).bindP (bvRandomBits_post p.1).toOk fun bv hbv => ?_
    refine Sim.Flows.bindP (Sim.Flows.lift _) (Sim.Post.lift ((construct_ready (.hammingSphere p.2) p.1).1 hp)).toOk fun s hs => ?_
    exact (propose_flows (hs.2.2 bv hbv).1.toValid).bind fun _ => (Sim.Flows.lift _).bind fun _ => Sim.Flows.pure _

example : Lives (hammingSphereTest 1000 10) := hammingSphereTest_lives _ _ (by norm_num)

/-! ## Incremental evaluation (C100) -/

section
variable {K σ : Type} [DecidableEq K]

theorem incrementalLoop_flows (eval : BV → Outcome K) (inc : σ → BV → K → List Nat → Outcome (K × σ)) {k : Sampler} :
    ∀ (iterations : Nat) (s : Nbh) (buffer : σ), s.Ready k → Sim.Flows (incrementalLoop eval inc k iterations s buffer)
  | 0, _, _, _ => Sim.Flows.pure _
  | iterations + 1, s, buffer, hs => by
    unfold incrementalLoop
    refine (Sim.Flows.lift _).bind fun _ => (propose_flows hs.toValid).bindP (propose_spec hs).toOk fun t ht => ?_
    refine (Sim.Flows.lift _).bind fun _ => (Sim.Flows.lift _).bind fun r => Sim.Flows.ite (Sim.Flows.pure _) ?_
    exact (Sim.Flows.lift _).bindP (Sim.Post.lift (keep_spec hs ht)).toOk fun u hu => incrementalLoop_flows eval inc iterations u _ hu.1

theorem incrementalRun_flows (eval : BV → Outcome K) (inc : σ → BV → K → List Nat → Outcome (K × σ)) (buffer : σ) {k : Sampler}
    {n : Nat} (hk : k.Fits n) (iterations : Nat) : Sim.Flows (incrementalRun eval inc buffer k n iterations) := by
  unfold incrementalRun
  refine (Sim.Flows.lift _).bindP (Sim.Post.lift ((construct_ready k n).1 hk)).toOk fun s hs => ?_
  exact (bvRandomBits_flows n).bindP (bvRandomBits_post n).toOk fun bv hbv =>
    incrementalLoop_flows eval inc iterations _ buffer (hs.2.2 bv hbv).1

end

theorem signedInt_flows (bound : Nat) : Sim.Flows (signedInt bound) := (Sim.Flows.uniformInt _ _).bind fun _ => Sim.Flows.pure _

/-- C100: whatever the test of incremental evaluation of `OneMax` has drawn, it has ended with the status 0, or can still do so. -/
theorem incrementalOneMaxTest_lives (runs size iterations : Nat) (hs : 1 ≤ size) :
    Lives (incrementalOneMaxTest runs size iterations) :=
  lives_every (incrementalOneMaxTest_succeeds runs size iterations hs) ((Sim.Flows.uniformInt _ _).bindP (Sim.Post.uniformInt hs).toOk
    fun _ hn => incrementalRun_flows _ _ _ (k := defaultMutation) hn.1 _)

example : Lives (incrementalOneMaxTest 100 100 100) ∧
    exitStatus (incrementalOneMaxTest 1 3 2) [2, 1, 0, 1, 1, 1, 0, 0, 0, 0, 0, 1, 0] = .ok 0 [] :=
  ⟨incrementalOneMaxTest_lives _ _ _ (by norm_num), by decide +kernel⟩

/-- C100: the same with single bit flips. -/
theorem incrementalSingleBitFlipTest_lives (runs size iterations : Nat) (hs : 1 ≤ size) :
    Lives (incrementalSingleBitFlipTest runs size iterations) :=
  lives_every (incrementalSingleBitFlipTest_succeeds runs size iterations hs) ((Sim.Flows.uniformInt _ _).bindP
    (Sim.Post.uniformInt hs).toOk fun _ hn => incrementalRun_flows _ _ _ (k := .singleBitFlip) hn.1 _)

example : Lives (incrementalSingleBitFlipTest 100 100 100) ∧
    exitStatus (incrementalSingleBitFlipTest 1 3 2) [2, 1, 0, 1, 2, 0] = .ok 0 [] :=
  ⟨incrementalSingleBitFlipTest_lives _ _ _ (by norm_num), by decide +kernel⟩

/-- C100: the same with mutations in a Hamming ball. -/
theorem incrementalHammingBallTest_lives (runs size iterations : Nat) (hs : 1 ≤ size) :
    Lives (incrementalHammingBallTest runs size iterations) :=
  lives_every (incrementalHammingBallTest_succeeds runs size iterations hs) ((Sim.Flows.uniformInt _ _).bindP
    (Sim.Post.uniformInt hs).toOk fun n hn => (Sim.Flows.uniformInt _ _).bindP (Sim.Post.uniformInt hn.1).toOk fun _ hr =>
      incrementalRun_flows _ _ _ (k := .hammingBall _) ⟨hr.1, hr.2⟩ _)

example : Lives (incrementalHammingBallTest 100 100 100) ∧
    exitStatus (incrementalHammingBallTest 1 3 1) [2, 1, 1, 0, 1, 0, 2, 0] = .ok 0 [] :=
  ⟨incrementalHammingBallTest_lives _ _ _ (by norm_num), by decide +kernel⟩

/-- C100: the same with mutations on a Hamming sphere. -/
theorem incrementalHammingSphereTest_lives (runs size iterations : Nat) (hs : 1 ≤ size) :
    Lives (incrementalHammingSphereTest runs size iterations) :=
  lives_every (incrementalHammingSphereTest_succeeds runs size iterations hs) ((Sim.Flows.uniformInt _ _).bindP
    (Sim.Post.uniformInt hs).toOk fun n hn => (Sim.Flows.uniformInt _ _).bindP (Sim.Post.uniformInt hn.1).toOk fun _ hr =>
      incrementalRun_flows _ _ _ (k := .hammingSphere _) ⟨hr.1, hr.2⟩ _)

example : Lives (incrementalHammingSphereTest 100 100 100) ∧
    exitStatus (incrementalHammingSphereTest 1 3 1) [2, 0, 1, 0, 1, 2, 0] = .ok 0 [] :=
  ⟨incrementalHammingSphereTest_lives _ _ _ (by norm_num), by decide +kernel⟩

/-- C100: whatever the test of incremental evaluation of the opposite of a function has drawn, it has ended with the status 0, or
can still do so. -/
theorem incrementalOppositeTest_lives (runs size iterations : Nat) (hs : 1 ≤ size) :
    Lives (incrementalOppositeTest runs size iterations) :=
  lives_every (incrementalOppositeTest_succeeds runs size iterations hs) ((Sim.Flows.uniformInt _ _).bindP
    (Sim.Post.uniformInt hs).toOk fun _ hn => incrementalRun_flows _ _ _ (k := defaultMutation) hn.1 _)

example : Lives (incrementalOppositeTest 100 100 100) ∧
    exitStatus (incrementalOppositeTest 1 3 1) [2, 1, 0, 1, 1, 1, 0] = .ok 0 [] :=
  ⟨incrementalOppositeTest_lives _ _ _ (by norm_num), by decide +kernel⟩

/-- C100: whatever the test of incremental evaluation of a linear function has drawn, it has ended with the status 0, or can still
do so. -/
theorem incrementalLinearTest_lives (runs size bound iterations : Nat) (hs : 1 ≤ size) :
    Lives (incrementalLinearTest runs size bound iterations) := by
  refine lives_every (incrementalLinearTest_succeeds runs size bound iterations hs) ((Sim.Flows.uniformInt _ _).bindP
    (Sim.Post.uniformInt hs).toOk fun n hn => ?_)
  unfold linearGenerate
  rw [stdGenerate_unit]
  exact (vectorGenerate_flows (signedInt_flows bound) n).bind fun _ => incrementalRun_flows _ _ _ (k := defaultMutation) hn.1 _

example : Lives (incrementalLinearTest 100 100 100 100) ∧
    exitStatus (incrementalLinearTest 1 3 5 1) [1, 9, 2, 1, 0, 1, 1] = .ok 0 [] :=
  ⟨incrementalLinearTest_lives _ _ _ _ (by norm_num), by decide +kernel⟩

/-- C100: whatever the test of incremental evaluation of a Walsh expansion of degree 1 has drawn, it has ended with the status 0,
or can still do so. -/
theorem incrementalWalsh1Test_lives (runs size bound iterations : Nat) (hs : 1 ≤ size) :
    Lives (incrementalWalsh1Test runs size bound iterations) :=
  lives_every (incrementalWalsh1Test_succeeds runs size bound iterations hs) ((Sim.Flows.uniformInt _ _).bindP
    (Sim.Post.uniformInt hs).toOk fun n hn => (vectorGenerate_flows (signedInt_flows bound) n).bind fun _ =>
      incrementalRun_flows _ _ _ (k := defaultMutation) hn.1 _)

example : Lives (incrementalWalsh1Test 100 100 100 100) ∧
    exitStatus (incrementalWalsh1Test 1 3 5 1) [1, 9, 2, 1, 0, 1, 1] = .ok 0 [] :=
  ⟨incrementalWalsh1Test_lives _ _ _ _ (by norm_num), by decide +kernel⟩

/-- C100: whatever the test of incremental evaluation of a chain of spins has drawn, it has ended with the status 0, or can still do
so. -/
theorem incrementalIsing1Test_lives (runs size bound iterations : Nat) (hs : 1 ≤ size) :
    Lives (incrementalIsing1Test runs size bound iterations) :=
  lives_every (incrementalIsing1Test_succeeds runs size bound iterations hs) ((Sim.Flows.uniformInt _ _).bindP
    (Sim.Post.uniformInt hs).toOk fun n hn => (ising1Generate_flows (signedInt_flows bound) (signedInt_flows bound) n).bind fun _ =>
      Sim.Flows.bernoulli.bind fun _ => incrementalRun_flows _ _ _ (k := defaultMutation) hn.1 _)

example : Lives (incrementalIsing1Test 100 100 100 100) ∧
    exitStatus (incrementalIsing1Test 1 3 5 1) [1, 9, 2, 7, 0, 1, 1, 0, 1, 1] = .ok 0 [] :=
  ⟨incrementalIsing1Test_lives _ _ _ _ (by norm_num), by decide +kernel⟩

/-- C100: whatever the test of incremental evaluation of a grid of spins has drawn, it has ended with the status 0, or can still do
so. -/
theorem incrementalIsing2Test_lives (runs rows columns bound iterations : Nat) (hr : 1 ≤ rows) (hc : 1 ≤ columns) :
    Lives (incrementalIsing2Test runs rows columns bound iterations) :=
  lives_every (incrementalIsing2Test_succeeds runs rows columns bound iterations hr hc) ((Sim.Flows.uniformInt _ _).bindP
    (Sim.Post.uniformInt hr).toOk fun r hr => (Sim.Flows.uniformInt _ _).bindP (Sim.Post.uniformInt hc).toOk fun c hc =>
      (ising2Generate_flows (signedInt_flows bound) (signedInt_flows bound) r c).bind fun _ => Sim.Flows.bernoulli.bind fun _ =>
        incrementalRun_flows _ _ _ (k := defaultMutation) (Nat.mul_pos hr.1 hc.1) _)

example : Lives (incrementalIsing2Test 100 20 20 100 100) ∧
    exitStatus (incrementalIsing2Test 1 2 2 5 1) [0, 1, 9, 2, 7, 0, 1, 1, 1, 1, 0, 0, 1] = .ok 0 [] :=
  ⟨incrementalIsing2Test_lives _ _ _ _ _ (by norm_num) (by norm_num), by decide +kernel⟩

end Hnco.Tests
