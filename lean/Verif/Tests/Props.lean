import Verif.Tests.Model
import Verif.Matrix.Props
import Verif.Map.Sampling
import Verif.BitVector.Props
import Verif.Neighborhood.Props
import Verif.Algorithm.AlgLemmas
import Verif.App.ModifierProps

/-!
# The project's own test programs on bit vectors, bit matrices and maps never fail (C97)

`Succeeds check` says that the program whose check is `check` is never undefined, throws nothing, and has the exit status 0
whenever it ends, whatever has been drawn.  The numbers of runs and the largest sizes are arbitrary.
-/

namespace Hnco.Tests

open Outcome

set_option maxRecDepth 100000

/-- The program ends with the exit status 0, whatever has been drawn: on no list of draws is it undefined, does it throw, or
does it end with another status. -/
def Succeeds (check : Sim Bool) : Prop :=
  ∀ ds : List Nat, (∃ rest, exitStatus check ds = .ok 0 rest) ∨ exitStatus check ds = .out

/-! ## Helper lemmas -/

theorem succeeds_of {check : Sim Bool} (h : Sim.Post check (fun b => b = true)) : Succeeds check := by
  have hp : Sim.Post (exitStatus check) (fun k => k = 0) := by
    refine h.bind fun b hb => ?_
    subst hb
    exact Sim.Post.pure rfl
  intro ds
  have := hp ds
  cases e : exitStatus check ds with
  | ok k rest => rw [e] at this; exact Or.inl ⟨rest, by rw [show k = 0 from this]⟩
  | throw _ => rw [e] at this; exact this.elim
  | ub => rw [e] at this; exact this.elim
  | out => exact Or.inr rfl

theorem every_post {body : Sim Bool} (h : Sim.Post body (fun b => b = true)) :
    ∀ runs, Sim.Post (every runs body) (fun b => b = true)
  | 0 => Sim.Post.pure rfl
  | runs + 1 => h.bind fun b hb => by subst hb; exact every_post h runs

theorem everyAt_post {body : Nat → Sim Bool} (h : ∀ i, Sim.Post (body i) (fun b => b = true)) :
    ∀ runs i, Sim.Post (everyAt body runs i) (fun b => b = true)
  | 0, _ => Sim.Post.pure rfl
  | runs + 1, i => (h i).bind fun b hb => by subst hb; exact everyAt_post h runs (i + 1)

theorem succeeds_every {body : Sim Bool} (h : Sim.Post body (fun b => b = true)) (runs : Nat) :
    Succeeds (every runs body) := succeeds_of (every_post h runs)

theorem zero_shape (n : Nat) : F2.HasShape n n (List.replicate n (List.replicate n false)) := by
  refine ⟨by simp, fun row h => ?_⟩
  rw [List.eq_of_mem_replicate h]
  simp

/-- What the loop which draws an invertible matrix leaves. -/
theorem drawInvertible_post {n : Nat} (hn : 0 < n) :
    Sim.Post (drawInvertible n) (fun s => F2.HasShape n n s.1 ∧ F2.Invertible n s.1 ∧ F2.IsIdentity n s.2.1 ∧
      F2.HasShape n n s.2.2.1 ∧ (∀ x : BV, x.length = n → F2.mulVec s.2.2.1 (F2.mulVec s.1 x) = x) ∧
      (∀ x : BV, x.length = n → F2.mulVec s.1 (F2.mulVec s.2.2.1 x) = x)) := by
  refine Sim.Post.doWhile (fun s => F2.HasShape n n s.2.2.1) _ (zero_shape n) fun s hs => ?_
  refine (bmRandom_post n n hn hn).bind fun M hM => ?_
  obtain ⟨found, M', N', e, h1, h2⟩ := bmInvert_correct n hn M s.2.2.1 hM hs
  refine (Sim.Post.lift ⟨_, e, rfl⟩).bind fun r hr => ?_
  subst hr
  refine Sim.Post.pure ⟨fun _ => ?_, fun h => ?_⟩
  · obtain ⟨r, e', hl, -⟩ := bmInvert_ok hn hM hs
    rw [e] at e'
    cases e'
    exact hl.2.choose_spec.2.2.1
  · have hf : found = true := by simpa using h
    exact ⟨hM, h1.mp hf, (h2 hf).1, (h2 hf).2.1, (h2 hf).2.2.1, (h2 hf).2.2.2⟩

theorem drawDistinct_post {n : Nat} :
    Sim.Post (drawDistinct n) (fun p => p.1 ≤ n - 1 ∧ p.2 ≤ n - 1 ∧ p.1 ≠ p.2) := by
  refine (Sim.Post.repeatUntil (P := fun p : Nat × Nat => p.1 ≤ n - 1 ∧ p.2 ≤ n - 1) ?_).bind fun p hp => ?_
  · refine (Sim.Post.uniformInt (Nat.zero_le _)).bind fun i hi => ?_
    exact (Sim.Post.uniformInt (Nat.zero_le _)).bind fun j hj => Sim.Post.pure ⟨hi.2, hj.2⟩
  · have hne : p.1 ≠ p.2 := by simpa using hp.2
    exact (Sim.Post.assert (by simpa using hne)).bind fun _ _ => Sim.Post.pure ⟨hp.1.1, hp.1.2, hne⟩

theorem mulVec_len {n m : Nat} {M : BM} (hM : F2.HasShape n m M) (x : BV) : (F2.mulVec M x).length = n := by
  rw [mulVec_length, hM.1]

theorem beq_post {α : Type} [BEq α] [LawfulBEq α] {a b : α} (h : a = b) :
    Sim.Post (pure (a == b) : Sim Bool) (fun c => c = true) := Sim.Post.pure (by simpa using h)

/-- Matrices which act in the same way are equal. -/
theorem shape_ext {n m : Nat} {A B : BM} (hA : F2.HasShape n m A) (hB : F2.HasShape n m B)
    (h : ∀ x : BV, x.length = m → F2.mulVec A x = F2.mulVec B x) : A = B := by
  refine toMat_inj hA hB (Matrix.ext_of_mulVec_single fun j => ?_)
  obtain ⟨x, hx, e⟩ := toVec_surj (Pi.single j (1 : ZMod 2))
  rw [← e, ← toVec_mulVec hA hx, ← toVec_mulVec hB hx, h x hx]

/-- A square matrix is invertible when it is onto. -/
theorem onto_invertible {n : Nat} {M : BM} (hM : F2.HasShape n n M) : F2.Onto n n M ↔ F2.Invertible n M := by
  rw [invertible_iff hM, onto_iff hM, Matrix.mulVec_surjective_iff_isUnit, Matrix.isUnit_iff_isUnit_det, isUnit_iff_ne_zero]

/-! ## Bit matrices -/

/-- C97: the test of `bm_multiply` never fails. -/
theorem bmMultiplyTest_succeeds (runs dim : Nat) (hd : 1 ≤ dim) : Succeeds (bmMultiplyTest runs dim) := by
  refine succeeds_every ?_ runs
  refine (Sim.Post.uniformInt hd).bind fun n hn => ?_
  refine (drawInvertible_post hn.1).bind fun s hs => ?_
  refine (bvRandomBits_post n).bind fun x hx => ?_
  refine (Sim.Post.lift ⟨_, bmMultiply_spec n n hn.1 hn.1 _ hs.1 x _ hx (by simp), rfl⟩).bind fun y hy => ?_
  subst hy
  refine (Sim.Post.lift ⟨_, bmMultiply_spec n n hn.1 hn.1 _ hs.2.2.2.1 _ _ (mulVec_len hs.1 x) (by simp), rfl⟩).bind
    fun z hz => ?_
  subst hz
  exact beq_post (hs.2.2.2.2.1 x hx).symm

example : exitStatus (bmMultiplyTest 1 2) [1, 1, 1, 0, 1, 1, 0] = .ok 0 [] := by decide +kernel

/-- C97: the test of `bm_add_rows` never fails. -/
theorem bmAddRowsTest_succeeds (runs dim : Nat) (hd : 2 ≤ dim) : Succeeds (bmAddRowsTest runs dim) := by
  refine succeeds_every ?_ runs
  refine (Sim.Post.uniformInt hd).bind fun n hn => ?_
  refine (bmRandom_post n n (by omega) (by omega)).bind fun M hM => ?_
  refine drawDistinct_post.bind fun p hp => ?_
  obtain ⟨M1, e1, e2⟩ := bind_eq_ok.mp (bmAddRows_twice n n M hM p.1 p.2 (by omega) (by omega) (Ne.symm hp.2.2))
  refine (Sim.Post.lift ⟨_, e1, rfl⟩).bind fun _ h => ?_
  subst h
  refine (Sim.Post.lift ⟨_, e2, rfl⟩).bind fun _ h => ?_
  exact beq_post h.symm

example : exitStatus (bmAddRowsTest 1 2) [0, 1, 1, 0, 1, 0, 0, 1, 0] = .ok 0 [] := by decide +kernel

/-- C97: the test of `bm_add_columns` never fails. -/
theorem bmAddColumnsTest_succeeds (runs dim : Nat) (hd : 2 ≤ dim) : Succeeds (bmAddColumnsTest runs dim) := by
  refine succeeds_every ?_ runs
  refine (Sim.Post.uniformInt hd).bind fun n hn => ?_
  refine (bmRandom_post n n (by omega) (by omega)).bind fun M hM => ?_
  refine drawDistinct_post.bind fun p hp => ?_
  obtain ⟨M1, e1, h1, f1⟩ := bmAddColumns_ent hM (by omega : 0 < n) (show p.1 < n by omega) (show p.2 < n by omega)
    (Ne.symm hp.2.2)
  obtain ⟨M2, e2, h2, f2⟩ := bmAddColumns_ent h1 (by omega : 0 < n) (show p.1 < n by omega) (show p.2 < n by omega)
    (Ne.symm hp.2.2)
  refine (Sim.Post.lift ⟨_, e1, rfl⟩).bind fun _ h => ?_
  subst h
  refine (Sim.Post.lift ⟨_, e2, rfl⟩).bind fun _ h => ?_
  subst h
  refine beq_post (h2.ext hM fun i j hi hj => ?_)
  rw [f2 i j hi hj]
  split
  · next h =>
    subst h
    rw [f1 i _ hi hj, f1 i _ hi (by omega), if_pos rfl, if_neg (Ne.symm hp.2.2)]
    simp
  · next h => rw [f1 i j hi hj, if_neg h]

example : exitStatus (bmAddColumnsTest 1 2) [0, 1, 1, 0, 1, 0, 0, 1, 0] = .ok 0 [] := by decide +kernel

/-- C97: the test of `bm_swap_rows` never fails. -/
theorem bmSwapRowsTest_succeeds (runs dim : Nat) (hd : 1 ≤ dim) : Succeeds (bmSwapRowsTest runs dim) := by
  refine succeeds_every ?_ runs
  refine (Sim.Post.uniformInt hd).bind fun n hn => ?_
  refine (bmRandom_post n n (by omega) (by omega)).bind fun M hM => ?_
  refine (Sim.Post.uniformInt (Nat.zero_le _)).bind fun i hi => ?_
  refine (Sim.Post.uniformInt (Nat.zero_le _)).bind fun j hj => ?_
  obtain ⟨M1, e1, e2⟩ := bind_eq_ok.mp (bmSwapRows_twice n n M hM i j (by omega) (by omega))
  refine (Sim.Post.lift ⟨_, e1, rfl⟩).bind fun _ h => ?_
  subst h
  refine (Sim.Post.lift ⟨_, e2, rfl⟩).bind fun _ h => ?_
  exact beq_post h.symm

example : exitStatus (bmSwapRowsTest 1 2) [1, 1, 1, 0, 1, 0, 1] = .ok 0 [] := by decide +kernel

/-- C97: the test of `bm_solve` never fails. -/
theorem bmSolveTest_succeeds (runs dim : Nat) (hd : 1 ≤ dim) : Succeeds (bmSolveTest runs dim) := by
  refine succeeds_every ?_ runs
  refine (Sim.Post.uniformInt hd).bind fun n hn => ?_
  refine (drawInvertible_post hn.1).bind fun s hs => ?_
  refine (Sim.Post.lift ⟨_, (bmIsIdentity_iff _).mpr ⟨n, hn.1, hs.2.2.1⟩, rfl⟩).bind fun b hb => ?_
  subst hb
  simp only [if_true]
  refine (bvRandomBits_post n).bind fun b hb => ?_
  obtain ⟨found, A', x, e, h1, h2⟩ := bmSolve_correct n hn.1 s.1 hs.1 b hb
  refine (Sim.Post.lift ⟨_, e, rfl⟩).bind fun r hr => ?_
  subst hr
  refine (Sim.Post.lift ⟨_, bmMultiply_spec n n hn.1 hn.1 _ hs.2.2.2.1 b _ hb (by simp), rfl⟩).bind fun z hz => ?_
  subst hz
  refine beq_post ?_
  exact ((h2 (h1.mpr hs.2.1)).2.2.1 _ (mulVec_len hs.2.2.2.1 b) (hs.2.2.2.2.2 b hb)).symm

example : exitStatus (bmSolveTest 1 2) [1, 0, 0, 0, 0, 1, 1, 0, 1, 1, 1] = .ok 0 [] := by decide +kernel

/-- C97: the test of `bm_rank` never fails. -/
theorem bmRankTest_succeeds (runs dim : Nat) (hd : 1 ≤ dim) : Succeeds (bmRankTest runs dim) := by
  refine succeeds_every ?_ runs
  refine (Sim.Post.uniformInt hd).bind fun n hn => ?_
  refine (bmRandom_post n n hn.1 hn.1).bind fun M hM => ?_
  obtain ⟨E, e, hE, -⟩ := bmRowEchelonForm_spec n n hn.1 M hM
  have hr := bmRank_echelon n n hn.1 M hM
  have hi := bmRank_eq_rows_iff n n hn.1 M hM
  rw [e, ok_bind] at hr
  refine (Sim.Post.lift ⟨_, e, rfl⟩).bind fun _ h => ?_
  subst h
  refine (Sim.Post.lift ⟨_, hr, rfl⟩).bind fun _ h => ?_
  subst h
  obtain ⟨found, M', N', e', h1, -⟩ := bmInvert_correct n hn.1 M _ hM hE
  refine (Sim.Post.lift ⟨_, e', rfl⟩).bind fun _ h => ?_
  subst h
  rw [e, ok_bind, hr, onto_invertible hM, ← h1] at hi
  refine beq_post ?_
  cases found with
  | true => simpa using hi.mpr rfl
  | false => simpa using hi

example : exitStatus (bmRankTest 2 2) [1, 1, 1, 0, 1, 1, 1, 1, 1, 1] = .ok 0 [] := by decide +kernel

/-- C97: the test of `bm_invert` never fails. -/
theorem bmInvertTest_succeeds (runs dim : Nat) (hd : 1 ≤ dim) : Succeeds (bmInvertTest runs dim) := by
  refine succeeds_every ?_ runs
  refine (Sim.Post.uniformInt hd).bind fun n hn => ?_
  refine (drawInvertible_post hn.1).bind fun s hs => ?_
  obtain ⟨h1, h2, h3, h4, h5, h6⟩ := hs
  obtain ⟨found, M', N', e, g1, g2⟩ := bmInvert_correct n hn.1 s.2.2.1 s.2.1 h4 h3.1
  refine (Sim.Post.lift ⟨_, e, rfl⟩).bind fun _ h => ?_
  subst h
  have hinv : F2.Invertible n s.2.2.1 := fun y hy =>
    ⟨F2.mulVec s.1 y, mulVec_len h1 y, h5 y hy, fun x' hx' hxy => by rw [← hxy, h6 x' hx']⟩
  obtain ⟨-, k1, k2, k3⟩ := g2 (g1.mpr hinv)
  refine beq_post (shape_ext h1 k1 fun x hx => ?_)
  have := k2 (F2.mulVec s.1 x) (mulVec_len h1 x)
  rw [h5 x hx] at this
  exact this.symm

example : exitStatus (bmInvertTest 1 2) [1, 1, 1, 0, 1] = .ok 0 [] := by decide +kernel

/-- C97: the test of `bm_identity` never fails. -/
theorem bmIdentityTest_succeeds (runs dim : Nat) (hd : 1 ≤ dim) : Succeeds (bmIdentityTest runs dim) := by
  refine succeeds_every ?_ runs
  refine (Sim.Post.uniformInt hd).bind fun n hn => ?_
  refine (Sim.Post.lift (bmIdentity_spec n hn.1 _ (zero_shape n))).bind fun M hM => ?_
  exact Sim.Post.lift ⟨true, (bmIsIdentity_iff _).mpr ⟨n, hn.1, hM⟩, rfl⟩

example : exitStatus (bmIdentityTest 2 3) [1, 2] = .ok 0 [] := by decide +kernel

/-- C97: the test that the rank of the rows is the rank of the columns never fails. -/
theorem bmRowColumnRankTest_succeeds (runs dim : Nat) (hd : 1 ≤ dim) : Succeeds (bmRowColumnRankTest runs dim) := by
  refine succeeds_every ?_ runs
  refine (Sim.Post.uniformInt hd).bind fun n hn => ?_
  refine (bmRandom_post n n hn.1 hn.1).bind fun M hM => ?_
  obtain ⟨E, e, hE, -⟩ := bmRowEchelonForm_spec n n hn.1 M hM
  have hr := bmRank_echelon n n hn.1 M hM
  rw [e, ok_bind] at hr
  refine (Sim.Post.lift ⟨_, e, rfl⟩).bind fun _ h => ?_
  subst h
  refine (Sim.Post.lift ⟨_, hr, rfl⟩).bind fun _ h => ?_
  subst h
  obtain ⟨T, eT, hT, fT⟩ := bmTranspose_spec n n hn.1 hn.1 M hM
  refine (Sim.Post.lift ⟨_, eT, rfl⟩).bind fun _ h => ?_
  subst h
  obtain ⟨E', e', hE', -⟩ := bmRowEchelonForm_spec n n hn.1 _ hT
  have hr' := bmRank_echelon n n hn.1 _ hT
  rw [e', ok_bind] at hr'
  refine (Sim.Post.lift ⟨_, e', rfl⟩).bind fun _ h => ?_
  subst h
  refine (Sim.Post.lift ⟨_, hr', rfl⟩).bind fun _ h => ?_
  subst h
  refine beq_post ?_
  rw [← Matrix.rank_transpose (F2.matrix n n M)]
  congr 1
  ext i j
  simp only [F2.matrix, Matrix.transpose_apply, fT j i j.2 i.2]

example : exitStatus (bmRowColumnRankTest 1 2) [1, 1, 1, 1, 1] = .ok 0 [] := by decide +kernel

/-! ## Bit vectors -/

/-- C97: the test of `bv_to_size_type` never fails, as long as the vectors fit into a word. -/
theorem bvToSizeTypeTest_succeeds (runs size : Nat) (hs : size ≤ 64) : Succeeds (bvToSizeTypeTest runs size) := by
  refine succeeds_every ?_ runs
  refine (Sim.Post.uniformInt (Nat.zero_le _)).bind fun n hn => ?_
  refine (bvRandomBits_post n).bind fun x hx => ?_
  obtain ⟨w, e1, e2⟩ := bind_eq_ok.mp (bvToWord_fromWord x (List.replicate n false) (by omega) (by simp [hx]))
  refine (Sim.Post.lift ⟨_, e1, rfl⟩).bind fun _ h => ?_
  subst h
  refine (Sim.Post.lift ⟨_, e2, rfl⟩).bind fun _ h => ?_
  exact beq_post h.symm

example : exitStatus (bvToSizeTypeTest 1 64) [3, 1, 0, 1] = .ok 0 [] := by decide +kernel

/-- Reading a stream which holds nothing but a displayed vector. -/
theorem bvFromStream_whole (x : BV) : bvFromStream (bvDisplay x) = ok (x, []) := by
  have hne : ∀ c ∈ bvDisplay x, (c != '\n') = true := by
    rw [bvDisplay_eq]
    intro c hc
    simp only [List.mem_map] at hc
    obtain ⟨b, -, rfl⟩ := hc
    cases b <;> decide
  unfold bvFromStream
  split
  · next h =>
    have : x = [] := by
      rw [bvDisplay_eq] at h
      exact List.map_eq_nil_iff.mp h
    rw [this]
  · have h1 : (bvDisplay x).takeWhile (fun c => c != '\n') = bvDisplay x := by
      simpa using List.takeWhile_append_of_pos (l₂ := []) hne
    have h2 : (bvDisplay x).dropWhile (fun c => c != '\n') = [] := by
      simpa using List.dropWhile_append_of_pos (l₂ := []) hne
    rw [h1, h2, bvFromString_display]
    rfl

/-- C97: the test of `bv_from_stream` never fails. -/
theorem bvFromStreamTest_succeeds (runs size : Nat) : Succeeds (bvFromStreamTest runs size) := by
  refine succeeds_every ?_ runs
  refine (Sim.Post.uniformInt (Nat.zero_le _)).bind fun n hn => ?_
  refine (bvRandomBits_post n).bind fun x hx => ?_
  refine (Sim.Post.lift ⟨_, bvFromStream_whole x, rfl⟩).bind fun _ h => ?_
  subst h
  exact beq_post rfl

example : exitStatus (bvFromStreamTest 2 5) [3, 1, 0, 1, 0] = .ok 0 [] := by decide +kernel

/-- C97: the test of `bv_random` never fails, if the generator draws numbers which are less than `n / n`. -/
theorem bvRandomTest_succeeds {K : Type} [LT K] [DecidableLT K] (ratio : Nat → Nat → K) (uniform : Nat → Nat → K)
    (hu : ∀ i n j, 0 < n → uniform i j < ratio n n) (runs size : Nat) (hs : 1 ≤ size) :
    Succeeds (bvRandomTest ratio uniform runs size) := by
  refine succeeds_of (everyAt_post (fun i => ?_) runs 0)
  refine (Sim.Post.uniformInt hs).bind fun n hn => ?_
  refine (Sim.Post.uniformInt hn.1).bind fun k hk => ?_
  refine (Sim.Post.lift (bvRandom_weight ratio (uniform i) (hu i) (List.replicate n false) k (by simpa using hk.2))).bind
    fun x hx => ?_
  exact beq_post hx.2

example : exitStatus (bvRandomTest (fun a b => (a : Rat) / b) (fun _ j => if j = 0 then 1/2 else 0) 1 3) [2, 1] = .ok 0 [] := by decide +kernel

/-! ## Maps -/

/-- C97: the test of translations never fails. -/
theorem translationTest_succeeds (runs size : Nat) (hs : 1 ≤ size) : Succeeds (translationTest runs size) := by
  refine succeeds_every ?_ runs
  refine (Sim.Post.uniformInt hs).bind fun n hn => ?_
  refine (Sim.Post.bind (P := fun v : BV => v.length = n) ?_) fun v hv => ?_
  · exact (Sim.Post.assert (decide_eq_true hn.1)).bind fun _ _ => bvRandomBits_post n
  refine (bvRandomBits_post n).bind fun x hx => ?_
  obtain ⟨h1, h2⟩ := translationMap_correct v n hv
  obtain ⟨e1, l1⟩ := h1 x (List.replicate n false) hx (by simp)
  obtain ⟨e2, -⟩ := h1 _ (List.replicate n false) l1 (by simp)
  refine (Sim.Post.lift ⟨_, e1, rfl⟩).bind fun _ h => ?_
  subst h
  refine (Sim.Post.lift ⟨_, e2, rfl⟩).bind fun _ h => ?_
  subst h
  exact beq_post (h2 x hx)

example : exitStatus (translationTest 1 2) [1, 1, 0, 1, 1] = .ok 0 [] := by decide +kernel

theorem drawPositions_post {k n : Nat} (hn : 0 < n) (hk : k ≤ n) :
    Sim.Post (drawPositions k n) (fun ps => ps.length = k ∧ Positions ps n) := by
  refine (Sim.Post.bind (P := fun p : List Int => p.Perm ((List.range n).map Int.ofNat)) ?_) fun p hp => ?_
  · exact (Sim.Post.assert (by simpa using hn)).bind fun _ _ => Sim.Post.shuffle _
  have hl : p.length = n := by simpa using hp.length_eq
  have hq : (p.map Int.toNat).Perm (List.range n) := by
    have := hp.map Int.toNat
    simpa [List.map_map, Function.comp_def] using this
  refine (Sim.Post.forRange (fun i ps => ps = (p.map Int.toNat).take i) (Nat.zero_le _) (by simp) ?_).mono ?_
  · rintro i ps - hi rfl
    have hi' : i < p.length := by omega
    refine (Sim.Post.lift ⟨_, vget_eq hi', rfl⟩).bind fun _ h => ?_
    subst h
    refine Sim.Post.pure ?_
    rw [List.take_succ_eq_append_getElem (by simpa using hi')]
    simp
  · rintro ps rfl
    refine ⟨by simp; omega, (hq.nodup_iff.mpr List.nodup_range).sublist (List.take_sublist _ _), fun q h => ?_⟩
    exact List.mem_range.mp (hq.mem_iff.mp (List.mem_of_mem_take h))

/-- C97: the test of injections and projections never fails. -/
theorem injectionProjectionTest_succeeds (runs size delta : Nat) (hs : 1 ≤ size) :
    Succeeds (injectionProjectionTest runs size delta) := by
  refine succeeds_every ?_ runs
  refine (Sim.Post.uniformInt hs).bind fun n hn => ?_
  refine (Sim.Post.uniformInt (Nat.zero_le _)).bind fun d hd => ?_
  refine (drawPositions_post (n := n + d) (by omega) (Nat.le_add_right _ _)).bind fun ps hps => ?_
  have hle : ¬ n + d < ps.length := by omega
  refine (Sim.Post.lift (P := fun _ => True) ⟨(), if_neg hle, trivial⟩).bind fun _ _ => ?_
  refine (Sim.Post.lift (P := fun _ => True) ⟨(), if_neg hle, trivial⟩).bind fun _ _ => ?_
  refine (bvRandomBits_post n).bind fun x hx => ?_
  refine (bvRandomBits_post (n + d)).bind fun y hy => ?_
  obtain ⟨z, e1, e2⟩ := bind_eq_ok.mp (projection_injection ps (n + d) hps.2 x y (List.replicate n false)
    (by rw [hx, hps.1]) hy (by simp [hps.1]))
  refine (Sim.Post.lift ⟨_, e1, rfl⟩).bind fun _ h => ?_
  subst h
  refine (Sim.Post.lift ⟨_, e2, rfl⟩).bind fun _ h => ?_
  exact beq_post h.symm

example : exitStatus (injectionProjectionTest 1 2 1) [1, 1, 4, 1, 0, 1, 1, 1] = .ok 0 [] := by decide +kernel

/-! ## Transvections -/

/-- C97: the test that a transvection undoes itself never fails. -/
theorem transvectionTest_succeeds (runs inner dim : Nat) (hd : 2 ≤ dim) : Succeeds (transvectionTest runs inner dim) := by
  refine succeeds_every ?_ runs
  refine (Sim.Post.uniformInt hd).bind fun n hn => ?_
  refine (tvRandom_post (by omega : 1 < n)).bind fun t ht => ?_
  have hv : tvIsValidN t n = true := tvIsValidN_iff.mpr ht
  rw [if_pos hv]
  refine every_post ?_ inner
  refine (bvRandomBits_post n).bind fun x hx => ?_
  subst hx
  obtain ⟨z, e1, e2⟩ := bind_eq_ok.mp (tvMultiply_involution t x hv)
  refine (Sim.Post.lift ⟨_, e1, rfl⟩).bind fun _ h => ?_
  subst h
  refine (Sim.Post.lift ⟨_, e2, rfl⟩).bind fun _ h => ?_
  exact beq_post h.symm

example : exitStatus (transvectionTest 1 1 3) [1, 0, 2, 1, 0, 1] = .ok 0 [] := by decide +kernel

/-- C97: the test that a sequence of transvections and its matrix agree never fails. -/
theorem tsMultiplyTest_succeeds (runs inner dim len : Nat) (hd : 2 ≤ dim) : Succeeds (tsMultiplyTest runs inner dim len) := by
  refine succeeds_every ?_ runs
  refine (Sim.Post.uniformInt hd).bind fun n hn => ?_
  refine (Sim.Post.uniformInt (Nat.zero_le _)).bind fun t ht => ?_
  refine (tsRandom_correct [] n t (by omega)).bind fun ts hts => ?_
  obtain ⟨I, eI, hI, hIx⟩ := bmIdentityN_spec n (by omega)
  refine (Sim.Post.lift ⟨_, eI, rfl⟩).bind fun _ h => ?_
  subst h
  obtain ⟨M', e, hM', hm⟩ := tsMultiplyMatrix_spec ts n n I hI.1 ((tsIsValidN_iff n ts).mpr hts.2)
  refine (Sim.Post.lift ⟨_, e, rfl⟩).bind fun _ h => ?_
  subst h
  refine every_post ?_ inner
  refine (bvRandomBits_post n).bind fun x hx => ?_
  refine (Sim.Post.lift ⟨_, bmMultiply_spec n n (by omega) (by omega) _ hM' x _ hx (by simp), rfl⟩).bind fun y hy => ?_
  subst hy
  have := hm x hx
  have hid : F2.mulVec I x = x := by
    have h1 := hIx x x hx hx
    rw [bmMultiply_spec n n (by omega) (by omega) I hI.1 x x hx hx] at h1
    exact Outcome.ok.inj h1
  rw [hid] at this
  refine (Sim.Post.lift ⟨_, this, rfl⟩).bind fun _ h => ?_
  exact beq_post h.symm

example : exitStatus (tsMultiplyTest 1 1 2 2) [0, 2, 0, 1, 1, 0, 1, 1] = .ok 0 [] := by decide +kernel

theorem involutionLoop_post {n : Nat} {ts : List Transvection} (hv : AllValid n ts)
    (hc : ts.Pairwise (fun a b => tvCommute a b = true)) (inner : Nat) :
    Sim.Post (involutionLoop inner n ts) (fun b => b = true) := by
  refine every_post ?_ inner
  refine (bvRandomBits_post n).bind fun x hx => ?_
  subst hx
  obtain ⟨z, e1, e2⟩ := bind_eq_ok.mp (tsMultiply_involution ts x ((tsIsValidN_iff _ ts).mpr hv) hc)
  refine (Sim.Post.lift ⟨_, e1, rfl⟩).bind fun _ h => ?_
  subst h
  refine (Sim.Post.lift ⟨_, e2, rfl⟩).bind fun _ h => ?_
  exact beq_post h.symm

theorem apart_commute {ts : List Transvection} (h : SourcesApart ts) : ts.Pairwise (fun a b => tvCommute a b = true) := by
  rw [List.pairwise_iff_forall_sublist]
  intro a b hs
  have ha : a ∈ ts := hs.subset (by simp)
  have hb : b ∈ ts := hs.subset (by simp)
  simp only [tvCommute]
  have h1 := h a ha b hb
  have h2 := h b hb a ha
  simp_all

theorem checkPairs_ok {rel : Transvection → Transvection → Bool} {ts : List Transvection}
    (h : ts.Pairwise (fun a b => rel a b = true)) : checkPairs rel ts = ok true := by
  obtain ⟨b, e, hb⟩ := forRange_returns (a := 0) (b := ts.length) (s := true)
    (body := fun i ok1 => forRange (i + 1) ts.length (fun j ok2 => do
      let a ← vget ts i
      let b ← vget ts j
      pure (ok2 && rel a b)) ok1) (fun _ b => b = true) (Nat.zero_le _) rfl (fun i b _ hi hb => by
      refine forRange_returns (fun _ b => b = true) (by omega) hb (fun j b hj hj' hb => ?_)
      rw [vget_eq hi, ok_bind, vget_eq hj', ok_bind]
      refine ⟨_, rfl, ?_⟩
      rw [hb, List.pairwise_iff_getElem.mp h i j hi hj' (by omega)]
      rfl)
  subst hb
  exact e

/-- C97: the test that the transvections drawn commute never fails. -/
theorem tsCommutingTest_succeeds (runs dim : Nat) (hd : 2 ≤ dim) : Succeeds (tsCommutingTest runs dim) := by
  refine succeeds_every ?_ runs
  refine (Sim.Post.uniformInt hd).bind fun n hn => ?_
  refine (tsRandomCommuting_correct n _ (by omega)).bind fun ts hts => ?_
  exact Sim.Post.lift ⟨true, checkPairs_ok hts.2.2.2, rfl⟩

example : exitStatus (tsCommutingTest 1 3) [1, 3, 1, 0, 0] = .ok 0 [] := by decide +kernel

/-- C97: the test that the commuting transvections drawn undo themselves never fails. -/
theorem tsCommutingInvolutionTest_succeeds (runs inner dim : Nat) (hd : 2 ≤ dim) :
    Succeeds (tsCommutingInvolutionTest runs inner dim) := by
  refine succeeds_every ?_ runs
  refine (Sim.Post.uniformInt hd).bind fun n hn => ?_
  refine (tsRandomCommuting_correct n _ (by omega)).bind fun ts hts => ?_
  exact involutionLoop_post hts.2.1 hts.2.2.2 inner

example : exitStatus (tsCommutingInvolutionTest 1 1 3) [1, 3, 1, 0, 0, 1, 1, 1] = .ok 0 [] := by decide +kernel

/-- C97: the test that the transvections drawn are disjoint never fails. -/
theorem tsDisjointTest_succeeds (runs dim : Nat) (hd : 2 ≤ dim) : Succeeds (tsDisjointTest runs dim) := by
  refine succeeds_every ?_ runs
  refine (Sim.Post.uniformInt hd).bind fun n hn => ?_
  refine (tsRandomDisjoint_correct [] n _ (by omega) (by omega)).bind fun ts hts => ?_
  exact Sim.Post.lift ⟨true, checkPairs_ok hts.2.2, rfl⟩

example : exitStatus (tsDisjointTest 1 4) [2, 3] = .ok 0 [] := by decide +kernel

/-- C97: the test that the disjoint transvections drawn undo themselves never fails. -/
theorem tsDisjointInvolutionTest_succeeds (runs inner dim : Nat) (hd : 2 ≤ dim) :
    Succeeds (tsDisjointInvolutionTest runs inner dim) := by
  refine succeeds_every ?_ runs
  refine (Sim.Post.uniformInt hd).bind fun n hn => ?_
  refine (tsRandomDisjoint_correct [] n _ (by omega) (by omega)).bind fun ts hts => ?_
  exact involutionLoop_post hts.2.1 (hts.2.2.imp fun h => tvDisjoint_commute _ _ h) inner

example : exitStatus (tsDisjointInvolutionTest 1 1 4) [2, 3, 1, 1, 0, 1] = .ok 0 [] := by decide +kernel

/-- C97: the test that the transvections drawn with unique sources undo themselves never fails. -/
theorem tsUniqueSourceTest_succeeds (runs inner dim : Nat) (hd : 2 ≤ dim) :
    Succeeds (tsUniqueSourceTest runs inner dim) := by
  refine succeeds_every ?_ runs
  refine (Sim.Post.uniformInt hd).bind fun n hn => ?_
  refine (tsRandomUniqueSource_correct n _ (by omega)).bind fun ts hts => ?_
  exact involutionLoop_post hts.2.1 (apart_commute hts.2.2.1) inner

example : exitStatus (tsUniqueSourceTest 1 1 3) [1, 2, 0, 0, 0, 1, 1, 0] = .ok 0 [] := by decide +kernel

/-- C97: the test that the transvections drawn with unique destinations undo themselves never fails. -/
theorem tsUniqueDestinationTest_succeeds (runs inner dim : Nat) (hd : 2 ≤ dim) :
    Succeeds (tsUniqueDestinationTest runs inner dim) := by
  refine succeeds_every ?_ runs
  refine (Sim.Post.uniformInt hd).bind fun n hn => ?_
  refine (tsRandomUniqueDestination_correct n _ (by omega)).bind fun ts hts => ?_
  exact involutionLoop_post hts.2.1 (apart_commute hts.2.2.1) inner

example : exitStatus (tsUniqueDestinationTest 1 1 3) [1, 2, 0, 0, 0, 1, 1, 0] = .ok 0 [] := by decide +kernel

theorem checkNeighbours_ok {ts : List Transvection} (h : ∀ (i : Nat) (u v : Transvection), ts[i]? = some u →
    ts[i + 1]? = some v → tvCommute v u = false) (hl : 1 ≤ ts.length) : checkNeighbours ts = ok true := by
  obtain ⟨b, e, hb⟩ := forRange_returns (a := 1) (b := ts.length) (s := true)
    (body := fun i acc => do
      let a ← vget ts i
      let b ← vget ts (i - 1)
      pure (acc && !tvCommute a b)) (fun _ b => b = true) hl rfl (fun i b hi hi' hb => by
      rw [vget_eq hi', ok_bind, vget_eq (show i - 1 < ts.length by omega), ok_bind]
      refine ⟨_, rfl, ?_⟩
      rw [hb, h (i - 1) _ _ (List.getElem?_eq_getElem (by omega)) (by
        rw [show i - 1 + 1 = i by omega]
        exact List.getElem?_eq_getElem hi')]
      rfl)
  subst hb
  exact e

/-- C97: the test that the neighbours in the sequence drawn do not commute never fails. -/
theorem tsNonCommutingTest_succeeds (runs dim : Nat) (hd : 2 ≤ dim) : Succeeds (tsNonCommutingTest runs dim) := by
  refine succeeds_every ?_ runs
  refine (Sim.Post.uniformInt hd).bind fun n hn => ?_
  refine (tsRandomNonCommuting_correct [] n _ (by omega) (by omega)).bind fun ts hts => ?_
  exact Sim.Post.lift ⟨true, checkNeighbours_ok hts.2.2 (by omega), rfl⟩

example : exitStatus (tsNonCommutingTest 1 2) [0, 0, 1, 0, 1, 1, 0, 0, 1, 0, 1] = .ok 0 [] := by decide +kernel

/-- C97: the test that the inverse of an affine map undoes it never fails. -/
theorem tsAffineInvertTest_succeeds (runs inner dim len : Nat) (hd : 2 ≤ dim) :
    Succeeds (tsAffineInvertTest runs inner dim len) := by
  refine succeeds_every ?_ runs
  refine (Sim.Post.uniformInt hd).bind fun n hn => ?_
  refine (Sim.Post.uniformInt (Nat.zero_le _)).bind fun t ht => ?_
  refine (tsAffineRandom_valid [] n t .unconstrained (by omega)).bind fun f hf => ?_
  obtain ⟨g, u, v, e, -, -, hu, hv, h1, -⟩ := tsAffineInvert_correct f n hf.1 hf.2
  refine (Sim.Post.lift ⟨_, e, rfl⟩).bind fun _ h => ?_
  subst h
  refine every_post ?_ inner
  refine (bvRandomBits_post n).bind fun x hx => ?_
  obtain ⟨e1, l1⟩ := hu x (List.replicate n false) hx (by simp)
  obtain ⟨e2, -⟩ := hv _ (List.replicate n false) l1 (by simp)
  refine (Sim.Post.lift ⟨_, e1, rfl⟩).bind fun _ h => ?_
  subst h
  refine (Sim.Post.lift ⟨_, e2, rfl⟩).bind fun _ h => ?_
  subst h
  exact beq_post (h1 x hx)

example : exitStatus (tsAffineInvertTest 1 1 2 1) [0, 1, 0, 1, 1, 0, 1, 1] = .ok 0 [] := by decide +kernel

end Hnco.Tests
