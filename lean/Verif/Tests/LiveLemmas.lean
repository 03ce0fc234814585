import Verif.App.FfgenLemmas
import Verif.Tests.Ends
import Verif.Tests.Live

/-!
# Which computations of the tests can always go on to an end
-/

namespace Hnco

open Outcome

namespace Sim.Flows

theorem forLoopP {σ : Type} {body : Nat → σ → Sim σ} (I : Nat → σ → Prop) :
    ∀ (n i : Nat) (s : σ), (∀ j s, i ≤ j → j < i + n → I j s → Sim.Flows (body j s)) →
      (∀ j s, i ≤ j → j < i + n → I j s → Sim.PostOk (body j s) (I (j + 1))) → I i s → Sim.Flows (Sim.forLoop n i body s)
  | 0, _, s, _, _, _ => pure s
  | n + 1, i, s, h, hI, hs => (h i s (le_refl _) (by omega) hs).bindP (hI i s (le_refl _) (by omega) hs) fun t ht =>
    forLoopP I n (i + 1) t (fun j s h1 h2 => h j s (by omega) (by omega)) (fun j s h1 h2 => hI j s (by omega) (by omega)) ht

theorem forRangeP {σ : Type} {body : Nat → σ → Sim σ} (I : Nat → σ → Prop) {a b : Nat} {s : σ} (hs : I a s)
    (h : ∀ j s, a ≤ j → j < b → I j s → Sim.Flows (body j s))
    (hI : ∀ j s, a ≤ j → j < b → I j s → Sim.PostOk (body j s) (I (j + 1))) : Sim.Flows (Sim.forRange a b body s) :=
  forLoopP I _ _ _ (fun j s h1 h2 => h j s h1 (by omega)) (fun j s h1 h2 => hI j s h1 (by omega)) hs

theorem uniformInt_nil {lo hi : Nat} (h : lo ≤ hi) : Sim.uniformInt lo hi [] = .out := by
  unfold Sim.uniformInt
  change Sim.bind (Sim.lift (assert (decide (lo ≤ hi)))) _ [] = _
  rw [assert_pos (by simpa using h)]
  rfl

end Sim.Flows

/-- There is a number below `n` which is not in a list of less than `n` elements. -/
theorem exists_fresh {n : Nat} {l : List Nat} (h : l.length < n) : ∃ i, i < n ∧ i ∉ l := by
  by_contra hc
  have hsub : List.range n ⊆ l := fun i hi => by
    by_contra hn
    exact hc ⟨i, List.mem_range.mp hi, hn⟩
  have := (List.subperm_of_subset List.nodup_range hsub).length_le
  rw [List.length_range] at this
  omega

/-! ## Neighbourhoods -/

theorem bernoulliTrials_flows (k : Nat) (s : Nbh) : Sim.Flows (bernoulliTrials k s) :=
  (Sim.Flows.forRange (fun _ _ => Sim.Flows.uniform.bind fun _ => Sim.Flows.ite (Sim.Flows.pure _) (Sim.Flows.pure _)) _ _ _).bind
    fun _ => (Sim.Flows.lift _).bind fun _ => Sim.Flows.pure _

theorem rejectionSampling_flows {k : Nat} {s : Nbh} (h : k ≤ s.n) : Sim.Flows (rejectionSampling k s) := by
  unfold rejectionSampling
  refine Sim.Flows.bind (Sim.Flows.forRangeP (a := 0) (fun j (l : List Nat) => l.length = j) rfl (fun j l _ hj hl => ?_)
    (fun j l _ _ hl => ?_)) fun _ => Sim.Flows.sort _ _
  · refine (Sim.Flows.repeatUntil (Sim.Flows.uniformInt _ _) (Sim.Flows.uniformInt_nil (Nat.zero_le _)) ?_).bind
      fun _ => Sim.Flows.pure _
    obtain ⟨i, h1, h2⟩ := exists_fresh (n := s.n) (l := l) (by omega)
    exact ⟨i, Sim.Reaches.uniformInt (Nat.zero_le _) (by omega), by simpa using h2⟩
  · refine Sim.PostOk.bind (Sim.PostOk.trivial _) fun i _ => Sim.PostOk.pure ?_
    rw [List.length_append, hl]
    rfl

theorem bernoulliProcess_flows {s : Nbh} (h : 0 < s.candidate.length) : Sim.Flows (bernoulliProcess s) := by
  refine (Sim.Flows.doWhile (fun _ => True) trivial (fun st => Sim.Flows.forRange (fun _ _ => Sim.Flows.bernoulli.bind fun _ =>
    Sim.Flows.ite (Sim.Flows.pure _) (Sim.Flows.pure _)) _ _ _) (fun _ _ _ _ _ _ _ => trivial) (fun st _ => ?_)
    (fun st _ => ?_)).bind fun _ => Sim.Flows.pure _
  · unfold Sim.forRange
    obtain ⟨m, hm⟩ : ∃ m, s.candidate.length - 0 = m + 1 := ⟨s.candidate.length - 1, by omega⟩
    rw [hm]
    rfl
  · refine ⟨(st.1 ++ List.range s.candidate.length, false), ?_, rfl⟩
    have := Sim.Reaches.forRange (body := fun i (st : List Nat × Bool) => do
        let b ← Sim.bernoulli
        if b then pure (st.1 ++ [i], false) else pure st)
      (fun i => (st.1 ++ List.range i, if i = 0 then st.2 else false)) (Nat.zero_le s.candidate.length) (s := st) (by simp) ?_
    · simpa [Nat.pos_iff_ne_zero.mp h] using this
    · intro i _ _
      refine Sim.Reaches.bind (Sim.Reaches.bernoulli true) ?_
      rw [if_pos rfl, List.range_succ, ← List.append_assoc]
      exact Sim.Reaches.pure _

theorem sampleBits_flows {k : Sampler} {s : Nbh} (hs : s.Valid k) : Sim.Flows (k.sampleBits s) := by
  obtain ⟨hf, _, hc, h1⟩ := hs
  cases k with
  | singleBitFlip => exact (Sim.Flows.lift _).bind fun _ => (Sim.Flows.uniformInt _ _).bind fun _ => Sim.Flows.lift _
  | standardBitMutation p =>
    have hf : 0 < s.n := hf
    unfold Sampler.sampleBits
    refine Sim.Flows.ite ?_ (bernoulliProcess_flows (by omega))
    refine Sim.Flows.ite ?_ ?_
    · exact (Sim.Flows.uniformInt _ _).bindP (Sim.Post.uniformInt (Nat.zero_le _)).toOk fun k hk => rejectionSampling_flows hk.2
    · exact (Sim.Flows.repeatUntil (Sim.Flows.uniformInt _ _) (Sim.Flows.uniformInt_nil (Nat.zero_le _))
        ⟨s.n, Sim.Reaches.uniformInt (Nat.zero_le _) (le_refl _), by simp; omega⟩).bindP
        (Sim.Post.repeatUntil (Sim.Post.uniformInt (Nat.zero_le _))).toOk fun k hk => rejectionSampling_flows hk.1.2
  | hammingBall r =>
    have hf : 0 < r ∧ r ≤ s.n := hf
    unfold Sampler.sampleBits
    refine (Sim.Flows.uniformInt _ _).bindP (Sim.Post.uniformInt hf.1).toOk fun k hk => (Sim.Flows.lift _).bind fun _ =>
      (Sim.Flows.lift _).bind fun _ => Sim.Flows.ite (rejectionSampling_flows (by omega)) (bernoulliTrials_flows _ _)
  | hammingSphere r =>
    have hf : 0 < r ∧ r ≤ s.n := hf
    exact Sim.Flows.ite (rejectionSampling_flows hf.2) (bernoulliTrials_flows _ _)

theorem propose_flows {k : Sampler} {s : Nbh} (hs : s.Valid k) : Sim.Flows (s.propose k) :=
  (Sim.Flows.lift _).bind fun _ => (sampleBits_flows hs).bind fun _ => (Sim.Flows.lift _).bind fun _ => Sim.Flows.pure _

/-! ## Random bit vectors, matrices and maps -/

theorem bvRandomBits_flows (n : Nat) : Sim.Flows (bvRandomBits n) :=
  Sim.Flows.forRange (fun _ _ => Sim.Flows.bernoulli.bind fun _ => Sim.Flows.pure _) _ _ _

theorem bmRandom_flows (r c : Nat) : Sim.Flows (bmRandom r c) :=
  (Sim.Flows.lift _).bind fun _ => (Sim.Flows.lift _).bind fun _ => Sim.Flows.forRange (fun _ _ =>
    (Sim.Flows.forRange (fun _ _ => Sim.Flows.bernoulli.bind fun _ => Sim.Flows.pure _) _ _ _).bind fun _ => Sim.Flows.pure _) _ _ _

theorem bmRandom_nil {r c : Nat} (hr : 0 < r) (hc : 0 < c) : bmRandom r c [] = .out := by
  obtain ⟨r, rfl⟩ : ∃ k, r = k + 1 := ⟨r - 1, by omega⟩
  obtain ⟨c, rfl⟩ : ∃ k, c = k + 1 := ⟨c - 1, by omega⟩
  rfl

/-- Each matrix can be drawn. -/
theorem bmRandom_reaches {r c : Nat} (hr : 0 < r) (hc : 0 < c) {M : BM} (hM : F2.HasShape r c M) : Sim.Reaches (bmRandom r c) M := by
  unfold bmRandom
  refine Sim.Reaches.bind (Sim.Reaches.lift (assert_pos (by simpa using hr))) ?_
  refine Sim.Reaches.bind (Sim.Reaches.lift (assert_pos (by simpa using hc))) ?_
  have h := Sim.Reaches.forRange (body := fun _ (M : BM) => do
    let row ← Sim.forRange 0 c (fun _ (r : BV) => do
      let b ← Sim.bernoulli
      return r ++ [b]) []
    return M ++ [row]) (fun i => M.take i) (Nat.zero_le r) (s := []) (by simp) ?_
  · rwa [List.take_of_length_le (by rw [hM.1])] at h
  · intro i _ hi
    have hi' : i < M.length := by rw [hM.1]; exact hi
    have hl : (M[i]).length = c := hM.2 _ (List.getElem_mem hi')
    refine Sim.Reaches.bind (a := M[i]) ?_ ?_
    · have := bvRandomBits_any M[i]
      rw [hl] at this
      exact this
    · rw [List.take_add_one, List.getElem?_eq_getElem hi']
      exact Sim.Reaches.pure _

theorem uniformPair_nil {α : Type} {n : Nat} (f : Nat → Nat → α) :
    (do let i ← Sim.uniformInt 0 (n - 1)
        let j ← Sim.uniformInt 0 (n - 1)
        pure (f i j) : Sim α) [] = .out :=
  Sim.Flows.bind_out (Sim.Flows.uniformInt_nil (Nat.zero_le _))

theorem tvRandom_flows {n : Nat} (hn : 1 < n) : Sim.Flows (tvRandom n) := by
  refine (Sim.Flows.lift _).bind fun _ => Sim.Flows.repeatUntil ((Sim.Flows.uniformInt _ _).bind fun _ =>
    (Sim.Flows.uniformInt _ _).bind fun _ => Sim.Flows.pure _) (uniformPair_nil _) ⟨⟨0, 1⟩, ?_, rfl⟩
  exact Sim.Reaches.bind (Sim.Reaches.uniformInt (Nat.zero_le _) (Nat.zero_le _))
    (Sim.Reaches.bind (Sim.Reaches.uniformInt (Nat.zero_le _) (by omega)) (Sim.Reaches.pure _))

theorem other_reached {n a : Nat} (hn : 1 < n) : ∃ i, Sim.Reaches (Sim.uniformInt 0 (n - 1)) i ∧ (!(i == a)) = true := by
  by_cases h : a = 0
  · exact ⟨1, Sim.Reaches.uniformInt (Nat.zero_le _) (by omega), by simp; omega⟩
  · exact ⟨0, Sim.Reaches.uniformInt (Nat.zero_le _) (by omega), by simp; omega⟩

theorem tvRandomNonCommuting_flows {n : Nat} (hn : 1 < n) (a : Transvection) : Sim.Flows (tvRandomNonCommuting n a) := by
  have h : ∀ b, Sim.Flows (Sim.repeatUntil (Sim.uniformInt 0 (n - 1)) (fun i => !(i == b))) := fun b =>
    Sim.Flows.repeatUntil (Sim.Flows.uniformInt _ _) (Sim.Flows.uniformInt_nil (Nat.zero_le _)) (other_reached hn)
  refine (Sim.Flows.lift _).bind fun _ => Sim.Flows.bernoulli.bind fun _ => Sim.Flows.bind (Sim.Flows.ite ?_ ?_) fun _ =>
    (Sim.Flows.lift _).bind fun _ => (Sim.Flows.lift _).bind fun _ => Sim.Flows.pure _
  · exact (h _).bind fun _ => Sim.Flows.pure _
  · exact (h _).bind fun _ => Sim.Flows.pure _

theorem tsRandomLoop_flows {n : Nat} (hn : 1 < n) : ∀ k, Sim.Flows (tsRandomLoop n k)
  | 0 => Sim.Flows.pure _
  | k + 1 => (tvRandom_flows hn).bind fun _ => (tsRandomLoop_flows hn k).bind fun _ => Sim.Flows.pure _

theorem tsRandom_flows {n : Nat} (hn : 1 < n) (ts : List Transvection) (t : Nat) : Sim.Flows (tsRandom ts n t) :=
  (Sim.Flows.lift _).bind fun _ => tsRandomLoop_flows hn t

theorem nonCommutingLoop_flows {n : Nat} (hn : 1 < n) : ∀ k a, Sim.Flows (nonCommutingLoop n k a)
  | 0, _ => Sim.Flows.pure _
  | k + 1, a => (tvRandomNonCommuting_flows hn a).bind fun t => (nonCommutingLoop_flows hn k t).bind fun _ => Sim.Flows.pure _

theorem tsRandomNonCommuting_flows {n : Nat} (hn : 1 < n) (ts : List Transvection) (t : Nat) :
    Sim.Flows (tsRandomNonCommuting ts n t) :=
  (Sim.Flows.lift _).bind fun _ => Sim.Flows.ite (Sim.Flows.pure _) ((tvRandom_flows hn).bind fun _ =>
    (nonCommutingLoop_flows hn _ _).bind fun _ => Sim.Flows.pure _)

theorem tsAffineRandom_flows {n : Nat} (hn : 1 < n) (f : TsAffine) (t : Nat) : Sim.Flows (tsAffineRandom f n t .unconstrained) :=
  (Sim.Flows.lift _).bind fun _ => (bvRandomBits_flows n).bind fun _ => (tsRandom_flows hn f.ts t).bind fun _ => Sim.Flows.pure _

/-! ## Random functions -/

section
variable {K : Type}

theorem nkFill_flows {g : Sim K} (hg : Sim.Flows g) (l : List K) : Sim.Flows (nkFill g l) :=
  Sim.Flows.forRange (fun _ _ => hg.bind fun _ => Sim.Flows.lift _) _ _ _

theorem vectorGenerate_flows [Zero K] {g : Sim K} (hg : Sim.Flows g) (n : Nat) : Sim.Flows (vectorGenerate g n) :=
  (Sim.Flows.lift _).bind fun _ => nkFill_flows hg _

theorem ising1Generate_flows [Zero K] {g h : Sim K} (hg : Sim.Flows g) (hh : Sim.Flows h) (n : Nat) : Sim.Flows (ising1Generate g h n) :=
  (Sim.Flows.lift _).bind fun _ => Sim.Flows.forRange (fun _ _ => hg.bind fun _ => (Sim.Flows.lift _).bind fun _ => hh.bind fun _ =>
    (Sim.Flows.lift _).bind fun _ => Sim.Flows.pure _) _ _ _

theorem ising2Site_flows {g h : Sim K} (hg : Sim.Flows g) (hh : Sim.Flows h) (i j : Nat) (m : Ising2 K) :
    Sim.Flows (ising2Site g h i j m) :=
  hg.bind fun _ => (Sim.Flows.lift _).bind fun _ => hg.bind fun _ => (Sim.Flows.lift _).bind fun _ => hh.bind fun _ =>
    (Sim.Flows.lift _).bind fun _ => Sim.Flows.pure _

theorem ising2Generate_flows [Zero K] {g h : Sim K} (hg : Sim.Flows g) (hh : Sim.Flows h) (r c : Nat) :
    Sim.Flows (ising2Generate g h r c) :=
  (Sim.Flows.lift _).bind fun _ => (Sim.Flows.lift _).bind fun _ => Sim.Flows.forRange (fun _ _ => Sim.Flows.forRange (fun _ _ =>
    ising2Site_flows hg hh _ _ _) _ _ _) _ _ _

end

namespace Tests

theorem drawDistinct_flows {n : Nat} (hn : 1 < n) : Sim.Flows (drawDistinct n) := by
  refine (Sim.Flows.repeatUntil ((Sim.Flows.uniformInt _ _).bind fun _ => (Sim.Flows.uniformInt _ _).bind fun _ => Sim.Flows.pure _)
    (uniformPair_nil _) ⟨(0, 1), ?_, rfl⟩).bind fun _ => (Sim.Flows.lift _).bind fun _ => Sim.Flows.pure _
  exact Sim.Reaches.bind (Sim.Reaches.uniformInt (Nat.zero_le _) (Nat.zero_le _))
    (Sim.Reaches.bind (Sim.Reaches.uniformInt (Nat.zero_le _) (by omega)) (Sim.Reaches.pure _))

theorem drawInvertible_flows {n : Nat} (hn : 0 < n) : Sim.Flows (drawInvertible n) := by
  refine Sim.Flows.doWhile (fun s => F2.HasShape n n s.2.2.1) (zero_shape n) (fun s => (bmRandom_flows n n).bind fun _ =>
    (Sim.Flows.lift _).bind fun _ => Sim.Flows.pure _) (fun s hs => ?_) (fun s hs => Sim.Flows.bind_out (bmRandom_nil hn hn))
    (fun s hs => ?_)
  · refine Sim.Post.toOk ?_
    refine (bmRandom_post n n hn hn).bind fun M hM => ?_
    obtain ⟨r, e, hl, -⟩ := bmInvert_ok hn hM hs
    refine (Sim.Post.lift ⟨_, e, rfl⟩).bind fun r' hr => ?_
    subst hr
    exact Sim.Post.pure fun _ => hl.2.choose_spec.2.2.1
  · obtain ⟨I, -, hI, -⟩ := bmIdentityN_spec n hn
    have hv : F2.Invertible n I := by
      rw [invertible_iff hI.1, toMat_eq_one (isIdentity_iff.mp hI).2, Matrix.det_one]
      exact one_ne_zero
    obtain ⟨found, M', N', e, h1, -⟩ := bmInvert_correct n hn I s.2.2.1 hI.1 hs
    refine ⟨(I, M', N', found), ?_, by rw [h1.mpr hv]; rfl⟩
    exact Sim.Reaches.bind (bmRandom_reaches hn hn hI.1) (Sim.Reaches.bind (Sim.Reaches.lift e) (Sim.Reaches.pure _))

end Tests

end Hnco
