import Verif.App.MoMainLemmas

/-!
# C95: the program `hnco-mo`
-/

namespace Hnco

open Outcome

/-! ## Representations -/

theorem integerToRep_bits {l : LogOps} {n : Nat} {a b : Int} {rep : Rep Int} (h : integerToRep l n a b = .ok rep) :
    rep.size = l.ceilLog2 (b - a + 1).toNat ∧ 0 < rep.size := by
  unfold integerToRep at h
  obtain ⟨r, hr, h⟩ := except_bind_ok h
  cases h
  have hr := liftConstruct_ok hr
  unfold dyadicExact at hr
  obtain ⟨e, h1, h2⟩ := bind_eq_ok.mp hr
  cases h2
  obtain ⟨_, _, h3, h4, _⟩ := dyadicExactSize_eq_ok h1
  exact ⟨h3, h4⟩

theorem intRep_bits {l : LogOps} {p : RepParams} {rep : Rep Int} (h : intRep l p = .ok rep) :
    rep.size = p.bits l ∧ 0 < rep.size := by
  cases p <;> first | exact integerToRep_bits h | cases h

theorem longRep_bits {l : LogOps} {p : RepParams} {rep : Rep Int} (h : longRep l p = .ok rep) :
    rep.size = p.bits l ∧ 0 < rep.size := by
  cases p <;> first | exact integerToRep_bits h | cases h

theorem floatLengths_bits {size : Int} {lengths : List Rat} (h : floatLengths size = ok lengths) :
    lengths.length = size.toNat ∧ 0 < lengths.length := by
  by_cases h0 : 0 < size
  · rw [floatLengths_eq h0] at h
    cases h
    simp only [List.length_map, List.length_range, true_and]
    omega
  · unfold floatLengths at h
    rw [assert_neg (by simpa using h0)] at h
    cases h

theorem doubleFloat_bits {l : LogOps} {p : RepParams} {r : DyadicFloat Rat} (h : doubleFloat l p = .ok r) :
    r.lengths.length = p.bits l ∧ 0 < r.lengths.length := by
  cases p with
  | int a b => cases h
  | long a b => cases h
  | set vs => cases h
  | doubleSize a b n =>
    have h := liftConstruct_ok h
    unfold floatWithSize at h
    simp only [bind_eq_ok] at h
    obtain ⟨_, _, _, _, ls, h1, h2⟩ := h
    cases h2
    exact floatLengths_bits h1
  | doublePrecision a b n =>
    have h := liftConstruct_ok h
    unfold floatWithPrecision at h
    simp only [bind_eq_ok] at h
    obtain ⟨_, _, _, _, ls, h1, h2⟩ := h
    cases h2
    exact floatLengths_bits h1

theorem doubleRep_bits {l : LogOps} {p : RepParams} {rep : Rep Rat} (h : doubleRep l p = .ok rep) :
    rep.size = p.bits l ∧ 0 < rep.size := by
  unfold doubleRep at h
  obtain ⟨r, hr, h⟩ := except_bind_ok h
  cases h
  exact doubleFloat_bits hr

theorem variantRep_bits {l : LogOps} {p : RepParams} {rep : Rep Rat} (h : variantRep l p = .ok rep) :
    rep.size = p.bits l ∧ 0 < rep.size := by
  cases p with
  | int a b =>
    obtain ⟨r, hr, h⟩ := except_bind_ok (show (integerToRep l 32 a b >>= fun r => Except.ok (r.map _)) = .ok rep from h)
    cases h
    exact integerToRep_bits hr
  | long a b =>
    obtain ⟨r, hr, h⟩ := except_bind_ok (show (integerToRep l 64 a b >>= fun r => Except.ok (r.map _)) = .ok rep from h)
    cases h
    exact integerToRep_bits hr
  | set vs =>
    obtain ⟨r, hr, h⟩ := except_bind_ok (show (liftConstruct (valueSetNew l.ceilLog2 vs) >>= fun r => Except.ok r.rep) = .ok rep from h)
    cases h
    have hr := liftConstruct_ok hr
    unfold valueSetNew at hr
    obtain ⟨d, h1, h2⟩ := bind_eq_ok.mp hr
    cases h2
    unfold dyadicCount at h1
    simp only [bind_eq_ok] at h1
    obtain ⟨u, h3, _, _, e, h4, h5⟩ := h1
    cases h5
    obtain ⟨rfl, _⟩ := checked_eq_ok h3
    obtain ⟨_, _, h6, h7, _⟩ := dyadicExactSize_eq_ok h4
    refine ⟨?_, h7⟩
    show e = l.ceilLog2 vs.length
    rw [h6]
    congr 1
    omega
  | doubleSize a b n => exact doubleRep_bits h
  | doublePrecision a b n => exact doubleRep_bits h

section
variable {l : LogOps} {o : FpOptions} {env : RepEnv} {d : RepParams} {names : List (List Char)}

theorem makeDouble_reps (henv : parseRepresentations o.stod o.parse o.representations = .ok env)
    (hd : parseRepresentation o.stod o.parse o.defaultDouble = .ok d) (hk : d.isDouble = true)
    (h : ∀ name ∈ names, (used RepParams.isDouble d (env name)).Representable l) :
    ∃ rs, makeDouble l o names = .ok rs ∧
      List.Forall₂ (fun name (rep : Rep Rat) => rep.Gives (used RepParams.isDouble d (env name)).Admits ∧
        rep.size = (used RepParams.isDouble d (env name)).bits l ∧ 0 < rep.size) names rs := by
  have hs : (fun p : RepParams => p.index == d.index) = RepParams.isDouble := funext (fun p => index_isDouble hk)
  obtain ⟨rs, hrs⟩ := (makeDouble_made (l := l) henv hd hk names).1.mpr h
  refine ⟨rs, hrs, ?_⟩
  unfold makeDouble at hrs
  rw [makeMultivariate_eq _ henv hd, hs] at hrs
  refine forall₂_mono (fun name rep h => ?_) (mapM_except hrs)
  exact ⟨doubleRep_gives h, doubleRep_bits h⟩

theorem makeLong_reps (hlog : ∀ m, l.ceilLog2 m = Nat.clog 2 m)
    (henv : parseRepresentations o.stod o.parse o.representations = .ok env)
    (hd : parseRepresentation o.stod o.parse o.defaultLong = .ok d) (hk : d.isLong = true)
    (h : ∀ name ∈ names, (used RepParams.isLong d (env name)).Representable l) :
    ∃ rs, makeLong l o names = .ok rs ∧ List.Forall₂ (fun name (rep : Rep Int) =>
      rep.Gives (fun z => (used RepParams.isLong d (env name)).Admits z) ∧
        rep.size = (used RepParams.isLong d (env name)).bits l ∧ 0 < rep.size) names rs := by
  have hs : (fun p : RepParams => p.index == d.index) = RepParams.isLong := funext (fun p => index_isLong hk)
  have ht : ∀ name, (used RepParams.isLong d (env name)).InTypes := fun name =>
    used_inTypes (parseRepresentation_inTypes hd) (fun p hp => parseRepresentations_inTypes henv name p hp)
  obtain ⟨rs, hrs⟩ := (makeLong_made hlog henv hd hk names).1.mpr h
  refine ⟨rs, hrs, ?_⟩
  unfold makeLong at hrs
  rw [makeMultivariate_eq _ henv hd, hs] at hrs
  refine forall₂_mono (fun name rep h => ?_) (mapM_except hrs)
  exact ⟨(longRep_gives (ht name) h).1, longRep_bits h⟩

theorem makeIntReal_reps (hlog : ∀ m, l.ceilLog2 m = Nat.clog 2 m)
    (henv : parseRepresentations o.stod o.parse o.representations = .ok env)
    (hd : parseRepresentation o.stod o.parse o.defaultInt = .ok d) (hk : d.isInt = true)
    (h : ∀ name ∈ names, (used RepParams.isInt d (env name)).Representable l) :
    ∃ rs, makeIntReal l o names = .ok rs ∧
      List.Forall₂ (fun name (rep : Rep Rat) => rep.Gives (used RepParams.isInt d (env name)).Admits ∧
        rep.size = (used RepParams.isInt d (env name)).bits l ∧ 0 < rep.size) names rs := by
  have hs : (fun p : RepParams => p.index == d.index) = RepParams.isInt := funext (fun p => index_isInt hk)
  have ht : ∀ name, (used RepParams.isInt d (env name)).InTypes := fun name =>
    used_inTypes (parseRepresentation_inTypes hd) (fun p hp => parseRepresentations_inTypes henv name p hp)
  obtain ⟨rs, hrs⟩ := (makeInt_made hlog henv hd hk names).1.mpr h
  refine ⟨rs.map (fun r => r.map (fun z : Int => (z : Rat))), by simp [makeIntReal, hrs], ?_⟩
  unfold makeInt at hrs
  rw [makeMultivariate_eq _ henv hd, hs] at hrs
  rw [List.forall₂_map_right_iff]
  refine forall₂_mono (fun name rep h => ?_) (mapM_except hrs)
  exact ⟨map_gives (intRep_gives (ht name) h).1, intRep_bits h⟩

theorem makeComplex_reps (henv : parseRepresentations o.stod o.parse o.representations = .ok env)
    (hd : parseRepresentation o.stod o.parse o.defaultDouble = .ok d) (hk : d.isDouble = true)
    (h : ∀ name ∈ names, (used RepParams.isDouble d (env (name ++ "_re".toList))).Representable l ∧
      (used RepParams.isDouble d (env (name ++ "_im".toList))).Representable l) :
    ∃ rs, makeComplex l o names = .ok rs ∧ List.Forall₂ (fun name (rep : Rep (Rat × Rat)) =>
      rep.Gives (fun z => (used RepParams.isDouble d (env (name ++ "_re".toList))).Admits z.1 ∧
        (used RepParams.isDouble d (env (name ++ "_im".toList))).Admits z.2) ∧
        rep.size = (used RepParams.isDouble d (env (name ++ "_re".toList))).bits l +
          (used RepParams.isDouble d (env (name ++ "_im".toList))).bits l ∧ 0 < rep.size) names rs := by
  have hs : (fun p : RepParams => p.index == d.index) = RepParams.isDouble := funext (fun p => index_isDouble hk)
  obtain ⟨rs, hrs⟩ := (makeComplex_made (l := l) henv hd hk names).1.mpr h
  refine ⟨rs, hrs, ?_⟩
  rw [makeComplex_eq l henv hd, hs] at hrs
  refine forall₂_mono (fun name rep h => ?_) (mapM_except hrs)
  obtain ⟨re, hre, h⟩ := except_bind_ok h
  obtain ⟨im, him, h⟩ := except_bind_ok h
  cases h
  obtain ⟨a, b, n, hs, hA⟩ := doubleFloat_size hre
  obtain ⟨a', b', n', hs', hA'⟩ := doubleFloat_size him
  have hg : (complexRep re im).Gives (fun z => (used RepParams.isDouble d (env (name ++ "_re".toList))).Admits z.1 ∧
      (used RepParams.isDouble d (env (name ++ "_im".toList))).Admits z.2) := by
    refine ⟨complex_decodes hs hs', fun bv v hl hv => ?_⟩
    obtain ⟨x, y, h1, _, _, h2, h3, h4, h5⟩ := complexUnpack_spec hs hs' (bv := bv) (start := 0) (by
      have : bv.length = re.lengths.length + im.lengths.length := hl
      omega)
    have hv : complexUnpack re im bv 0 = ok v := hv
    rw [h1] at hv
    cases hv
    exact ⟨hA x h2 h3, hA' y h4 h5⟩
  obtain ⟨b1, b2⟩ := doubleFloat_bits hre
  obtain ⟨b3, b4⟩ := doubleFloat_bits him
  refine ⟨hg, ?_, ?_⟩
  · show re.lengths.length + im.lengths.length = _
    rw [b1, b3]
    rfl
  · show 0 < re.lengths.length + im.lengths.length
    omega

theorem makeMixed_reps (hlog : ∀ m, l.ceilLog2 m = Nat.clog 2 m) {d' : RepParams}
    (henv : parseRepresentations o.stod o.parse o.representations = .ok env)
    (hd' : parseRepresentation o.stod o.parse o.defaultLong = .ok d')
    (hd : parseRepresentation o.stod o.parse o.defaultDouble = .ok d) (hk : d.isDouble = true)
    (hset : ∀ name vs, env name = some (.set vs) → vs.length < 2 ^ 31)
    (h : ∀ name ∈ names, (used (fun p => !p.isInt) d (env name)).Representable l) :
    ∃ rs, makeMixed l o names = .ok rs ∧ List.Forall₂ (fun name (rep : Rep Rat) =>
      rep.Gives (used (fun p => !p.isInt) d (env name)).Admits ∧
        rep.size = (used (fun p => !p.isInt) d (env name)).bits l ∧ 0 < rep.size) names rs := by
  have ht : ∀ name, (used (fun p => !p.isInt) d (env name)).InTypes := fun name =>
    used_inTypes (parseRepresentation_inTypes hd) (fun p hp => parseRepresentations_inTypes henv name p hp)
  have hset' : ∀ name vs, used (fun p => !p.isInt) d (env name) = .set vs → vs.length < 2 ^ 31 := by
    intro name vs h
    cases he : env name with
    | none =>
      rw [he] at h
      have h : d = .set vs := h
      rw [h] at hk
      cases hk
    | some p =>
      rw [he] at h
      have h : (if !p.isInt then p else d) = .set vs := h
      split at h
      · exact hset name vs (by rw [he, h])
      · rw [h] at hk; cases hk
  obtain ⟨rs, hrs⟩ := (makeMixed_made hlog henv hd' hd hk hset names).1.mpr h
  refine ⟨rs, hrs, ?_⟩
  have e : makeMixed l o names = names.mapM (fun name => variantRep l (used (fun p => !p.isInt) d (env name))) := by
    unfold makeMixed
    rw [henv, hd', hd]
    show names.mapM (envRep (variantRep l) (names.foldl (completeMixed d) env)) = _
    refine mapM_except_congr (fun name hn => ?_)
    unfold envRep
    rw [completeMixed_eq, putUnless_fold _ _ _ _ _ hn]
  rw [e] at hrs
  refine forall₂_mono (fun name rep h => ?_) (mapM_except hrs)
  exact ⟨variantRep_gives (ht name) (hset' name) h, variantRep_bits h⟩

end

/-! ## The functions of the factory -/

section
variable {w : MoWorld} {argv : List (List Char)} {items : List (OptDoc × Option (List Char))} {k : Int} {es : List (List Char)}
  {o : FpOptions}

/-- The options of a command line, and the function which is made first. -/
theorem MoCommand.made (h : MoCommand w argv items k es o) : ∃ s text, hncoMoClass.parse w.opt false argv = .ok s ∧
    MoRead w items s ∧ moGetExpression w s = ok text ∧ moExpressions text = some es ∧ moFpOptions w s = ok o ∧
    ∃ n > 0, hncoMoClass.int s "bv_size" = ok n ∧ hncoMoClass.int s "function" = ok k := by
  obtain ⟨s, h1, h2⟩ := h.read
  obtain ⟨text, h3, h4, h5⟩ := h.expression
  obtain ⟨n, h6, h7⟩ := h.bvSize
  exact ⟨s, text, h1, h2, moGetExpression_eq h2 h3, moExpressions_eq h4 h5, moFpOptions_eq h2 h.representations, n, h6,
    h2.int (moParam_ok 1 rfl) h7, h2.int (moParam_ok 2 rfl) h.function⟩

theorem moMakeFunction_eq {s : OptState} {n k : Int} (hn : n > 0) (h1 : hncoMoClass.int s "bv_size" = ok n)
    (h2 : hncoMoClass.int s "function" = ok k) : moMakeFunction w s =
      if k = 520 then moMake w s 0 w.doubles (makeDouble w.log) (moAdapterEvaluate scalarToDouble)
      else if k = 521 then moMake w s 0 w.longs (makeLong w.log) (moAdapterEvaluate (fun z : Int => scalarToDouble z))
      else if k = 522 then moMake w s (0, 0) w.complexes (makeComplex w.log) (moAdapterEvaluate squaredMagnitude)
      else if k = 523 then moMake w s 0 w.doubles (makeIntReal w.log) (moAdapterEvaluate scalarToDouble)
      else if k = 524 then moMake w s 0 w.doubles (makeMixed w.log) (moMixedEvaluate scalarToDouble)
      else if k = 530 then moMake w s 0 w.doubles (makeDouble w.log) (moAdapterEvaluate absoluteValue)
      else if k = 531 then moMake w s 0 w.longs (makeLong w.log) (moAdapterEvaluate (fun z : Int => absoluteValue z))
      else if k = 532 then moMake w s (0, 0) w.complexes (makeComplex w.log) (moAdapterEvaluate squaredMagnitude)
      else if k = 533 then moMake w s 0 w.doubles (makeIntReal w.log) (moAdapterEvaluate absoluteValue)
      else if k = 534 then moMake w s 0 w.doubles (makeMixed w.log) (moMixedEvaluate absoluteValue)
      else Sim.lift (.throw .runtimeError) := by
  unfold moMakeFunction
  rw [h1, h2]
  change (if n ≤ 0 then _ else _) = _
  rw [if_neg (by omega)]

/-- Whatever is done with the functions of an adapter. -/
theorem hncoMo_adapter {D : Type} {zero : D} {parser : List Char → Option (ParsedExpr D)}
    {reps : FpOptions → List (List Char) → Except AdapterExn (List (Rep D))}
    {evaluate : MoAdapter D → BV → MoValue → Outcome (MoAdapter D × MoValue)} {converter : D → Rat}
    {domain : List Char → D → Prop} {bits : List Char → Nat} {Q : MoEnd → Prop} (h : MoCommand w argv items k es o)
    (hp : ∀ e ∈ es, ∃ p, parser e = some p)
    (hmake : ∀ s n, n > 0 → hncoMoClass.int s "bv_size" = ok n → hncoMoClass.int s "function" = ok k →
      moMakeFunction w s = moMake w s zero parser reps evaluate)
    (hr : ∀ names, IsVariables parser es names → ∃ rs, reps o names = .ok rs ∧
      List.Forall₂ (fun name (rep : Rep D) => rep.Gives (domain name) ∧ rep.size = bits name ∧ 0 < rep.size) names rs)
    (hev : ∀ (a : MoAdapter D) names rs, a.Ready parser es names rs → (∀ rep ∈ rs, rep.Decodes) → ∀ bv : BV,
      bv.length = (rs.map Rep.size).sum → ∀ value : MoValue, value.length = es.length →
        ∃ b result σ, evaluate a bv value = ok (b, result) ∧ AssignsFrom names rs bv σ ∧ IsObjectives parser converter σ es result)
    (hq : ∀ s f, MoRead w items s → MoFunction.Good parser converter es domain bits f → Sim.Post (moCatch (moFinish w s f)) Q) :
    Sim.Post (hncoMoMain w argv) Q := by
  obtain ⟨s, text, h1, h2, h3, h4, h5, n, hn, h6, h7⟩ := h.made
  refine hncoMo_made h h1 h2 (P := MoFunction.Good parser converter es domain bits) ?_ (fun f hf => hq s f h2 hf)
  rw [hmake s n hn h6 h7]
  exact moMake_post h3 h4 hp h5 hr hev

theorem evaluate_plain {D : Type} [Nonempty D] {parser : List Char → Option (ParsedExpr D)} (converter : D → Rat) (a : MoAdapter D)
    (names : List (List Char)) (rs : List (Rep D)) (ha : a.Ready parser es names rs) (hrs : ∀ rep ∈ rs, rep.Decodes) (bv : BV)
    (hbv : bv.length = (rs.map Rep.size).sum) (value : MoValue) (hv : value.length = es.length) :
    ∃ b result σ, moAdapterEvaluate converter a bv value = ok (b, result) ∧ AssignsFrom names rs bv σ ∧
      IsObjectives parser converter σ es result := by
  obtain ⟨b, r, σ, h1, _, h2, h3⟩ := moAdapterEvaluate_ready ha hrs ‹_› converter hbv hv
  exact ⟨b, r, σ, h1, h2, h3⟩

theorem evaluate_mixed {parser : List Char → Option (ParsedExpr Rat)} (converter : Rat → Rat) (a : MoAdapter Rat)
    (names : List (List Char)) (rs : List (Rep Rat)) (ha : a.Ready parser es names rs) (hrs : ∀ rep ∈ rs, rep.Decodes) (bv : BV)
    (hbv : bv.length = (rs.map Rep.size).sum) (value : MoValue) (hv : value.length = es.length) :
    ∃ b result σ, moMixedEvaluate converter a bv value = ok (b, result) ∧ AssignsFrom names rs bv σ ∧
      IsObjectives parser converter σ es result := by
  obtain ⟨b, r, σ, h1, _, h2, h3⟩ := moMixedEvaluate_ready ha hrs ⟨0⟩ converter hbv hv
  exact ⟨b, r, σ, h1, h2, h3⟩

/-! ## Runs -/

variable {env : RepEnv} {d d' : RepParams}

/-- C95: functions of `double` variables, number 520, or 530 with absolute values.  If the expression and the declarations are well
formed, and the declaration of each variable can be represented, then the program succeeds, if it ends, and it prints the front of
a population; its objectives are the values of the sub expressions, the variables being in the intervals of their declarations. -/
theorem hncoMo_double (h : MoCommand w argv items k es o) {converter : Rat → Rat}
    (hk : (k = 520 ∧ converter = fun x => x) ∨ (k = 530 ∧ converter = fun x => |x|))
    (hp : ∀ e ∈ es, ∃ p, w.doubles e = some p)
    (henv : parseRepresentations o.stod o.parse o.representations = .ok env)
    (hd : parseRepresentation o.stod o.parse o.defaultDouble = .ok d) (hdk : d.isDouble = true)
    (hrep : ∀ e ∈ es, ∀ p, w.doubles e = some p → ∀ name ∈ p.names, (used RepParams.isDouble d (env name)).Representable w.log) :
    Sim.Post (hncoMoMain w argv)
      (MoReports w.doubles converter es (fun name v => (used RepParams.isDouble d (env name)).Admits v)
        (fun name => (used RepParams.isDouble d (env name)).bits w.log) w items) := by
  obtain ⟨text, _, _, hsp⟩ := h.expression
  refine hncoMo_adapter (zero := (0 : Rat)) (reps := makeDouble w.log) (evaluate := moAdapterEvaluate converter) h hp ?_
    (fun names hn => makeDouble_reps henv hd hdk (fun name hname => ?_)) (evaluate_plain converter)
    (fun s f hr hf => moFinish_reports hr (splits_nonempty hsp) hf)
  · intro s n hn h1 h2
    rw [moMakeFunction_eq hn h1 h2]
    rcases hk with ⟨rfl, rfl⟩ | ⟨rfl, rfl⟩ <;> rfl
  · obtain ⟨e, he, p, hpe, hm⟩ := (hn.mem name).mp hname
    exact hrep e he p hpe name hm

/-- C95: functions of `long` variables, number 521, or 531 with absolute values. -/
theorem hncoMo_long (h : MoCommand w argv items k es o) {converter : Int → Rat}
    (hk : (k = 521 ∧ converter = fun z : Int => (z : Rat)) ∨ (k = 531 ∧ converter = fun z : Int => |(z : Rat)|))
    (hlog : ∀ m, w.log.ceilLog2 m = Nat.clog 2 m)
    (hp : ∀ e ∈ es, ∃ p, w.longs e = some p)
    (henv : parseRepresentations o.stod o.parse o.representations = .ok env)
    (hd : parseRepresentation o.stod o.parse o.defaultLong = .ok d) (hdk : d.isLong = true)
    (hrep : ∀ e ∈ es, ∀ p, w.longs e = some p → ∀ name ∈ p.names, (used RepParams.isLong d (env name)).Representable w.log) :
    Sim.Post (hncoMoMain w argv)
      (MoReports w.longs converter es (fun name (z : Int) => (used RepParams.isLong d (env name)).Admits z)
        (fun name => (used RepParams.isLong d (env name)).bits w.log) w items) := by
  obtain ⟨text, _, _, hsp⟩ := h.expression
  refine hncoMo_adapter (zero := (0 : Int)) (reps := makeLong w.log) (evaluate := moAdapterEvaluate converter) h hp ?_
    (fun names hn => makeLong_reps hlog henv hd hdk (fun name hname => ?_)) (evaluate_plain converter)
    (fun s f hr hf => moFinish_reports hr (splits_nonempty hsp) hf)
  · intro s n hn h1 h2
    rw [moMakeFunction_eq hn h1 h2]
    rcases hk with ⟨rfl, rfl⟩ | ⟨rfl, rfl⟩ <;> rfl
  · obtain ⟨e, he, p, hpe, hm⟩ := (hn.mem name).mp hname
    exact hrep e he p hpe name hm

/-- C95: functions of complex variables, numbers 522 and 532: the objectives are squared magnitudes. -/
theorem hncoMo_complex (h : MoCommand w argv items k es o)
    (hk : k = 522 ∨ k = 532)
    (hp : ∀ e ∈ es, ∃ p, w.complexes e = some p)
    (henv : parseRepresentations o.stod o.parse o.representations = .ok env)
    (hd : parseRepresentation o.stod o.parse o.defaultDouble = .ok d) (hdk : d.isDouble = true)
    (hrep : ∀ e ∈ es, ∀ p, w.complexes e = some p → ∀ name ∈ p.names,
      (used RepParams.isDouble d (env (name ++ "_re".toList))).Representable w.log ∧
      (used RepParams.isDouble d (env (name ++ "_im".toList))).Representable w.log) :
    Sim.Post (hncoMoMain w argv) (MoReports w.complexes (fun z => z.1 * z.1 + z.2 * z.2) es (fun name z =>
      (used RepParams.isDouble d (env (name ++ "_re".toList))).Admits z.1 ∧
      (used RepParams.isDouble d (env (name ++ "_im".toList))).Admits z.2)
      (fun name => (used RepParams.isDouble d (env (name ++ "_re".toList))).bits w.log +
        (used RepParams.isDouble d (env (name ++ "_im".toList))).bits w.log) w items) := by
  obtain ⟨text, _, _, hsp⟩ := h.expression
  refine hncoMo_adapter (zero := ((0 : Rat), (0 : Rat))) (reps := makeComplex w.log) (evaluate := moAdapterEvaluate squaredMagnitude)
    h hp ?_ (fun names hn => makeComplex_reps henv hd hdk (fun name hname => ?_)) (evaluate_plain squaredMagnitude)
    (fun s f hr hf => moFinish_reports hr (splits_nonempty hsp) hf)
  · intro s n hn h1 h2
    rw [moMakeFunction_eq hn h1 h2]
    rcases hk with rfl | rfl <;> rfl
  · obtain ⟨e, he, p, hpe, hm⟩ := (hn.mem name).mp hname
    exact hrep e he p hpe name hm

/-- C95: functions of `int` variables, number 523, or 533 with absolute values. -/
theorem hncoMo_int (h : MoCommand w argv items k es o) {converter : Rat → Rat}
    (hk : (k = 523 ∧ converter = fun x => x) ∨ (k = 533 ∧ converter = fun x => |x|))
    (hlog : ∀ m, w.log.ceilLog2 m = Nat.clog 2 m)
    (hp : ∀ e ∈ es, ∃ p, w.doubles e = some p)
    (henv : parseRepresentations o.stod o.parse o.representations = .ok env)
    (hd : parseRepresentation o.stod o.parse o.defaultInt = .ok d) (hdk : d.isInt = true)
    (hrep : ∀ e ∈ es, ∀ p, w.doubles e = some p → ∀ name ∈ p.names, (used RepParams.isInt d (env name)).Representable w.log) :
    Sim.Post (hncoMoMain w argv)
      (MoReports w.doubles converter es (fun name v => (used RepParams.isInt d (env name)).Admits v)
        (fun name => (used RepParams.isInt d (env name)).bits w.log) w items) := by
  obtain ⟨text, _, _, hsp⟩ := h.expression
  refine hncoMo_adapter (zero := (0 : Rat)) (reps := makeIntReal w.log) (evaluate := moAdapterEvaluate converter) h hp ?_
    (fun names hn => makeIntReal_reps hlog henv hd hdk (fun name hname => ?_)) (evaluate_plain converter)
    (fun s f hr hf => moFinish_reports hr (splits_nonempty hsp) hf)
  · intro s n hn h1 h2
    rw [moMakeFunction_eq hn h1 h2]
    rcases hk with ⟨rfl, rfl⟩ | ⟨rfl, rfl⟩ <;> rfl
  · obtain ⟨e, he, p, hpe, hm⟩ := (hn.mem name).mp hname
    exact hrep e he p hpe name hm

/-- C95: functions of variables of mixed types, number 524, or 534 with absolute values: longs, doubles and sets are kept, and
integers are replaced by the default representation of doubles. -/
theorem hncoMo_mixed (h : MoCommand w argv items k es o) {converter : Rat → Rat}
    (hk : (k = 524 ∧ converter = fun x => x) ∨ (k = 534 ∧ converter = fun x => |x|))
    (hlog : ∀ m, w.log.ceilLog2 m = Nat.clog 2 m)
    (hp : ∀ e ∈ es, ∃ p, w.doubles e = some p)
    (henv : parseRepresentations o.stod o.parse o.representations = .ok env)
    (hd' : parseRepresentation o.stod o.parse o.defaultLong = .ok d')
    (hd : parseRepresentation o.stod o.parse o.defaultDouble = .ok d) (hdk : d.isDouble = true)
    (hset : ∀ name vs, env name = some (.set vs) → vs.length < 2 ^ 31)
    (hrep : ∀ e ∈ es, ∀ p, w.doubles e = some p → ∀ name ∈ p.names, (used (fun p => !p.isInt) d (env name)).Representable w.log) :
    Sim.Post (hncoMoMain w argv)
      (MoReports w.doubles converter es (fun name v => (used (fun p => !p.isInt) d (env name)).Admits v)
        (fun name => (used (fun p => !p.isInt) d (env name)).bits w.log) w items) := by
  obtain ⟨text, _, _, hsp⟩ := h.expression
  refine hncoMo_adapter (zero := (0 : Rat)) (reps := makeMixed w.log) (evaluate := moMixedEvaluate converter) h hp ?_
    (fun names hn => makeMixed_reps hlog henv hd' hd hdk hset (fun name hname => ?_)) (evaluate_mixed converter)
    (fun s f hr hf => moFinish_reports hr (splits_nonempty hsp) hf)
  · intro s n hn h1 h2
    rw [moMakeFunction_eq hn h1 h2]
    rcases hk with ⟨rfl, rfl⟩ | ⟨rfl, rfl⟩ <;> rfl
  · obtain ⟨e, he, p, hpe, hm⟩ := (hn.mem name).mp hname
    exact hrep e he p hpe name hm

/-! ## Other ends -/

theorem moMain_parsed {s : OptState} (hs : hncoMoClass.parse w.opt false argv = .ok s) : hncoMoMain w argv = moCatch (moProgram w s) := by
  unfold hncoMoMain
  rw [hs]

/-- C95: the default parameters are printed, whatever the other options are. -/
theorem hncoMo_parameters (hl : CommandLine hncoMoClass.help argv items) (hf : ∀ i ∈ items, FineItem w.opt i)
    (h : Appears items "print-default-parameters") (ds : List Nat) : hncoMoMain w argv ds = .ok (.exit 0 .parameters) ds := by
  obtain ⟨s, h1, h2⟩ := options_read moClass_mem w.opt false hl hf
  have hr : MoRead w items s := ⟨h2, hf, fun i hi => hl.docs i hi⟩
  rw [moMain_parsed h1]
  unfold moProgram
  rw [if_pos ((hr.flag (moFlag_ok 0 rfl)).mpr h)]
  rfl

theorem moCatch_thrown {m : Sim MoEnd} {ds : List Nat} (h : m ds = .throw .runtimeError) : moCatch m ds = .ok (.exit 1 .message) [] := by
  unfold moCatch
  rw [h]

/-- C95 (negative part): with the number of another function, among them the default number 180, the program always fails, except
that it prints the default parameters. -/
theorem hncoMo_unknown (hl : CommandLine hncoMoClass.help argv items) (hf : ∀ i ∈ items, FineItem w.opt i)
    (hn : ¬ Appears items "print-default-parameters") (hk : ParamOf hncoMoClass w.opt items "function" (.int k))
    (hne : ∀ j ∈ [520, 521, 522, 523, 524, 530, 531, 532, 533, 534], k ≠ j) (ds : List Nat) :
    hncoMoMain w argv ds = .ok (.exit 1 .message) [] := by
  obtain ⟨s, h1, h2⟩ := options_read moClass_mem w.opt false hl hf
  have hr : MoRead w items s := ⟨h2, hf, fun i hi => hl.docs i hi⟩
  rw [moMain_parsed h1]
  refine moCatch_thrown ?_
  obtain ⟨t, ht, _⟩ := get_int moClass_mem hr.settings hr.fine (moParam_ok 0 rfl)
  obtain ⟨n, hn', _⟩ := get_int moClass_mem hr.settings hr.fine (moParam_ok 1 rfl)
  have hfun := hr.int (moParam_ok 2 rfl) hk
  unfold moProgram
  rw [if_neg (by simp [hr.lowered (moFlag_ok 0 rfl) hn]), ht]
  change (if t < 1 then Sim.lift (.throw .runtimeError) else (moMakeFunction w s >>= _)) ds = _
  split
  · rfl
  · have hm : moMakeFunction w s ds = .throw .runtimeError := by
      by_cases h0 : n ≤ 0
      · unfold moMakeFunction
        rw [hn', hfun]
        change (if n ≤ 0 then Sim.lift (.throw .runtimeError) else _) ds = _
        rw [if_pos h0]
        rfl
      · rw [moMakeFunction_eq (by omega) hn' hfun]
        simp only [List.mem_cons, List.not_mem_nil, or_false, forall_eq_or_imp, forall_eq] at hne
        obtain ⟨n1, n2, n3, n4, n5, n6, n7, n8, n9, n10⟩ := hne
        rw [if_neg n1, if_neg n2, if_neg n3, if_neg n4, if_neg n5, if_neg n6, if_neg n7, if_neg n8, if_neg n9, if_neg n10]
        rfl
    change Sim.bind (moMakeFunction w s) _ ds = _
    unfold Sim.bind
    rw [hm]

theorem moMake_uncaught {D : Type} {s : OptState} {zero : D} {parser : List Char → Option (ParsedExpr D)}
    {reps : FpOptions → List (List Char) → Except AdapterExn (List (Rep D))}
    {evaluate : MoAdapter D → BV → MoValue → Outcome (MoAdapter D × MoValue)} {text : List Char}
    (ht : moGetExpression w s = ok text) (hes : moExpressions text = some es) (hp : ∀ e ∈ es, ∃ p, parser e = some p)
    (ho : moFpOptions w s = ok o) (hr : ∀ names, reps o names = .error (.parse .conversion)) :
    Sim.Post (moMake w s zero parser reps evaluate) (fun r => r = none) := by
  unfold moMake
  refine Sim.Post.lift_bind ht ?_
  have hsplit : moSplit text = pure es := by simp [moSplit, hes]
  rw [hsplit]
  refine (Sim.Post.pure (P := fun l => l = es) rfl).bind (fun l hl => ?_)
  rw [hl]
  refine (moParse_ready zero hp).bind (fun f hf => ?_)
  refine Sim.Post.lift_bind ho ?_
  rw [hr]
  refine (Sim.Post.pure (P := fun l => l = none) rfl).bind (fun l hl => ?_)
  subst hl
  exact Sim.Post.pure rfl

/-- C95 (negative part): a number in the declarations which is not a number, or which is out of range, is an exception which the
program does not catch: it is terminated, without a message of its own. -/
theorem hncoMo_terminated (h : MoCommand w argv items k es o) (hk : k = 520 ∨ k = 530)
    (hp : ∀ e ∈ es, ∃ p, w.doubles e = some p) (henv : parseRepresentations o.stod o.parse o.representations = .error .conversion) :
    Sim.Post (hncoMoMain w argv) (fun e => e = .terminated) := by
  obtain ⟨s, text, h1, h2, h3, h4, h5, n, hn, h6, h7⟩ := h.made
  rw [moMain_parsed h1]
  obtain ⟨z, hz, hthreads⟩ := h.threads
  have hprog : moProgram w s = (moMakeFunction w s >>= moGoOn w s (z.toNat - 1)) := by
    unfold moProgram
    rw [if_neg (by simp [h2.lowered (moFlag_ok 0 rfl) h.defaults]), h2.int (moParam_ok 0 rfl) hthreads]
    change (if z < 1 then _ else _) = _
    rw [if_neg (by omega)]
  rw [hprog]
  refine moCatch_bind (P := fun r => r = none) ?_ (fun r hr => ?_)
  · rw [moMakeFunction_eq hn h6 h7]
    rcases hk with rfl | rfl
    · exact moMake_uncaught h3 h4 hp h5 (fun names => (make_malformed henv names).1)
    · exact moMake_uncaught h3 h4 hp h5 (fun names => (make_malformed henv names).1)
  · subst hr
    exact Sim.Post.moCatch (Sim.Post.pure rfl)

end

/-! ## Examples -/

/-- A world where the expressions `z - x` and `y * x` can be parsed. -/
def moExampleWorld : MoWorld where
  opt := exampleOptLib
  log := exactLog
  stod := digitStod
  doubles := fun e => (toyParser e).map (fun p => ⟨p.names, fun _ => 0⟩)
  longs := toyParser
  complexes := fun _ => none
  file := fun _ => none
  belowSqrt := fun _ _ => false

/-- The words of `hnco-mo -F 521 --fp-expression "z - x::y * x" --fp-representations "x : long(0, 1)" -i 0 --ea-mu 3
--print-pareto-front`. -/
def moExampleWords : List (List Char) :=
  ["-F".toList, "521".toList, "--fp-expression".toList, "z - x::y * x".toList, "--fp-representations".toList, "x : long(0, 1)".toList,
    "-i".toList, "0".toList, "--ea-mu".toList, "3".toList, "--print-pareto-front".toList]

def moFunctionDoc : OptDoc := ⟨some 'F', "function".toList, .value .int (some (.int 180))⟩
def moExpressionDoc : OptDoc := ⟨none, "fp-expression".toList, .value .string none⟩
def moRepresentationsDoc : OptDoc := ⟨none, "fp-representations".toList, .value .string none⟩
def moIterationsDoc : OptDoc := ⟨some 'i', "num-iterations".toList, .value .int (some (.int 100))⟩
def moMuDoc : OptDoc := ⟨none, "ea-mu".toList, .value .int (some (.int 100))⟩
def moFrontDoc : OptDoc := ⟨none, "print-pareto-front".toList, .flag⟩
def moAlgorithmDoc : OptDoc := ⟨some 'A', "algorithm".toList, .value .int (some (.int 100))⟩
def moSizeDoc : OptDoc := ⟨some 's', "bv-size".toList, .value .int (some (.int 100))⟩
def moThreadsDoc : OptDoc := ⟨none, "num-threads".toList, .value .int (some (.int 1))⟩
def moTournamentDoc : OptDoc := ⟨none, "ea-tournament-size".toList, .value .int (some (.int 2))⟩
def moIntDoc : OptDoc := ⟨none, "fp-default-int-rep".toList, .value .string (some (.str "int(-10, 10)".toList))⟩
def moLongDoc : OptDoc := ⟨none, "fp-default-long-rep".toList, .value .string (some (.str "long(-100, 100)".toList))⟩
def moDoubleDoc : OptDoc :=
  ⟨none, "fp-default-double-rep".toList, .value .string (some (.str "double(0, 1, precision = 1e-3)".toList))⟩
def moPrecisionDoc : OptDoc := ⟨none, "fp-default-double-precision".toList, .value .double none⟩
def moDoubleSizeDoc : OptDoc := ⟨none, "fp-default-double-size".toList, .value .int none⟩
def moRateDoc : OptDoc := ⟨some 'm', "ea-mutation-rate".toList, .value .double none⟩

set_option maxRecDepth 100000 in
theorem moExampleDocs_mem : ∀ d ∈ [moFunctionDoc, moExpressionDoc, moRepresentationsDoc, moIterationsDoc, moMuDoc, moFrontDoc,
    moAlgorithmDoc, moSizeDoc, moThreadsDoc, moTournamentDoc, moIntDoc, moLongDoc, moDoubleDoc, moPrecisionDoc, moDoubleSizeDoc,
    moRateDoc], d ∈ hncoMoClass.help := by decide +kernel

def moExampleItems : List (OptDoc × Option (List Char)) :=
  [(moFunctionDoc, some "521".toList), (moExpressionDoc, some "z - x::y * x".toList),
    (moRepresentationsDoc, some "x : long(0, 1)".toList), (moIterationsDoc, some "0".toList), (moMuDoc, some "3".toList),
    (moFrontDoc, none)]

theorem moExample_line : CommandLine hncoMoClass.help moExampleWords moExampleItems := by
  refine .option (words := ["-F".toList, "521".toList]) (.letterSeparate (c := 'F') (moExampleDocs_mem _ (by simp)) rfl) ?_
  refine .option (words := ["--fp-expression".toList, "z - x::y * x".toList])
    (.separate (p := "fp-expression".toList) ⟨moExampleDocs_mem _ (by simp), Or.inl rfl⟩ rfl) ?_
  refine .option (words := ["--fp-representations".toList, "x : long(0, 1)".toList])
    (.separate (p := "fp-representations".toList) ⟨moExampleDocs_mem _ (by simp), Or.inl rfl⟩ rfl) ?_
  refine .option (words := ["-i".toList, "0".toList]) (.letterSeparate (c := 'i') (moExampleDocs_mem _ (by simp)) rfl) ?_
  refine .option (words := ["--ea-mu".toList, "3".toList])
    (.separate (p := "ea-mu".toList) ⟨moExampleDocs_mem _ (by simp), Or.inl rfl⟩ rfl) ?_
  exact .option (words := ["--print-pareto-front".toList])
    (.flag (p := "print-pareto-front".toList) ⟨moExampleDocs_mem _ (by simp), Or.inl rfl⟩ rfl) .done

theorem means_digits (lib : OptLib) {s : List Char} {n : Nat} (h : s ≠ []) (hd : ∀ c ∈ s, c.isDigit = true) (hn : digitsValue s = n)
    (hb : n < 2 ^ 31) : Means lib .int s (.int n) := by
  have hr : IntRead s ((digitsValue s : Nat) : Int) := by
    have := intRead_digits (rest := []) h hd (by simp)
    simpa using this
  rw [hn] at hr
  exact .int hr (by omega) (by omega)

theorem paramOf_given {c : OptClass} {lib : OptLib} {items : List (OptDoc × Option (List Char))} {d : OptDoc} {name : String} {k : OptKind}
    {default : Option OptValue} {x : OptValue} {v : List Char} (hd : d ∈ c.help) (hn : d.name = name.toList)
    (hk : d.kind = .value k default) (hv : LastArgument items d v) (hm : Means lib k v x) : ParamOf c lib items name x :=
  ⟨d, hd, hn, k, default, hk, .inl ⟨v, hv, hm⟩⟩

theorem paramOf_default {c : OptClass} {lib : OptLib} {items : List (OptDoc × Option (List Char))} {d : OptDoc} {name : String} {k : OptKind}
    {x : OptValue} (hd : d ∈ c.help) (hn : d.name = name.toList) (hk : d.kind = .value k (some x)) (hv : ¬ Appears items name) :
    ParamOf c lib items name x :=
  ⟨d, hd, hn, k, _, hk, .inr ⟨fun ⟨i, hi, he⟩ => hv ⟨i, hi, by rw [he, hn]⟩, rfl⟩⟩

theorem not_appears {items : List (OptDoc × Option (List Char))} {name : String} (h : name.toList ∉ items.map (fun i => i.1.name)) :
    ¬ Appears items name := by
  rintro ⟨i, hi, hn⟩
  exact h (List.mem_map.mpr ⟨i, hi, hn⟩)

theorem moExample_fine : ∀ i ∈ moExampleItems, FineItem moExampleWorld.opt i := by
  intro i hi
  simp only [moExampleItems, List.mem_cons, List.not_mem_nil, or_false] at hi
  rcases hi with rfl | rfl | rfl | rfl | rfl | rfl
  · exact .value rfl (means_digits _ (n := 521) (by decide) (by decide) (by decide) (by decide))
  · exact .value rfl .string
  · exact .value rfl .string
  · exact .value rfl (means_digits _ (n := 0) (by decide) (by decide) (by decide) (by decide))
  · exact .value rfl (means_digits _ (n := 3) (by decide) (by decide) (by decide) (by decide))
  · exact .flag rfl

theorem moExample_names {name : String} (h : name.toList ∉ ["function".toList, "fp-expression".toList, "fp-representations".toList,
    "num-iterations".toList, "ea-mu".toList, "print-pareto-front".toList]) : ¬ Appears moExampleItems name := not_appears h

/-- The options of the representations in the example. -/
def moExampleOptions : FpOptions :=
  { stod := digitStod, parse := ⟨none, none⟩, representations := "x : long(0, 1)".toList, defaultInt := "int(-10, 10)".toList
    defaultLong := "long(-100, 100)".toList, defaultDouble := "double(0, 1, precision = 1e-3)".toList }

theorem paramOf_none {lib : OptLib} {items : List (OptDoc × Option (List Char))} {d : OptDoc} {name : String} {k : OptKind} {x : OptValue}
    (hd : d ∈ hncoMoClass.help) (hn : d.name = name.toList) (hk : d.kind = .value k none) (hv : ¬ Appears items name) :
    ¬ ParamOf hncoMoClass lib items name x := by
  rintro ⟨d', h1, h2, k', df, h3, h4⟩
  obtain rfl := doc_eq (check_classes moClass_mem) h1 hd (by rw [h2, hn])
  rw [hk] at h3
  cases h3
  rcases h4 with ⟨v, ⟨before, after, h5, _⟩, _⟩ | ⟨_, h4⟩
  · exact hv ⟨(d', some v), by rw [h5]; simp, h2⟩
  · cases h4

theorem moExample_command :
    MoCommand moExampleWorld moExampleWords moExampleItems 521 ["z - x".toList, "y * x".toList] moExampleOptions where
  line := moExample_line
  fine := moExample_fine
  defaults := moExample_names (by decide)
  threads := ⟨1, le_rfl, paramOf_default (d := moThreadsDoc) (moExampleDocs_mem _ (by simp)) rfl rfl (moExample_names (by decide))⟩
  bvSize := ⟨100, by decide, paramOf_default (d := moSizeDoc) (moExampleDocs_mem _ (by simp)) rfl rfl (moExample_names (by decide))⟩
  function := paramOf_given (d := moFunctionDoc) (k := .int) (moExampleDocs_mem _ (by simp)) rfl rfl ⟨[], moExampleItems.tail, rfl, by decide⟩
    (means_digits _ (n := 521) (by decide) (by decide) (by decide) (by decide))
  expression := by
    refine ⟨"z - x::y * x".toList, .inl (paramOf_given (d := moExpressionDoc) (k := .string) (moExampleDocs_mem _ (by simp)) rfl rfl
      ⟨[(moFunctionDoc, some "521".toList)], moExampleItems.tail.tail, rfl, by decide⟩ .string), by simp, ?_⟩
    obtain ⟨es, h1, h2, _⟩ := moParsed_expressions (D := Unit) (expression := "z - x::y * x".toList) (by simp)
    have : moExpressions "z - x::y * x".toList = some ["z - x".toList, "y * x".toList] := by decide +kernel
    rw [this] at h1
    cases h1
    exact h2
  representations := by
    refine ⟨rfl, .inl (paramOf_given (d := moRepresentationsDoc) (k := .string) (moExampleDocs_mem _ (by simp)) rfl rfl
      ⟨[(moFunctionDoc, some "521".toList), (moExpressionDoc, some "z - x::y * x".toList)], moExampleItems.tail.tail.tail, rfl, by decide⟩
      .string), fun r => ⟨fun h => (by cases h), fun h => absurd h ?_⟩, fun r => ⟨fun h => (by cases h), fun h => absurd h ?_⟩, ?_, ?_, ?_⟩
    · exact paramOf_none (d := moPrecisionDoc) (moExampleDocs_mem _ (by simp)) rfl rfl (moExample_names (by decide))
    · exact paramOf_none (d := moDoubleSizeDoc) (moExampleDocs_mem _ (by simp)) rfl rfl (moExample_names (by decide))
    · exact paramOf_default (d := moIntDoc) (moExampleDocs_mem _ (by simp)) rfl rfl (moExample_names (by decide))
    · exact paramOf_default (d := moLongDoc) (moExampleDocs_mem _ (by simp)) rfl rfl (moExample_names (by decide))
    · exact paramOf_default (d := moDoubleDoc) (moExampleDocs_mem _ (by simp)) rfl rfl (moExample_names (by decide))

set_option maxRecDepth 100000 in
/-- A run of the program: two vectors of objectives are printed.  The numbers of bits are those of the example. -/
example : (match hncoMoMain { moExampleWorld with log := ⟨fun m => if m ≤ 2 then 1 else 8, fun _ => 1⟩ } moExampleWords
      ((List.range 200).map (fun i => i * i * 7 % 3 % 2)) with
    | .ok (.exit 0 (.results none (some v))) _ => decide (v = [[8, 82], [82, 0]])
    | _ => false) = true := by decide +kernel

attribute [local irreducible] hncoMoMain

def moExampleEnv : RepEnv := RepEnv.put (fun _ => none) "x".toList (.long 0 1)

theorem moExample_env : parseRepresentations moExampleOptions.stod moExampleOptions.parse moExampleOptions.representations =
    .ok moExampleEnv := by rfl

theorem moExample_long : parseRepresentation moExampleOptions.stod moExampleOptions.parse moExampleOptions.defaultLong =
    .ok (.long (-100) 100) := by rfl

theorem moExample_log (m : Nat) : moExampleWorld.log.ceilLog2 m = Nat.clog 2 m := by rfl

/-- The program of the example prints a front of vectors of objectives `z - x` and `y * x`, where `x` is 0 or 1, and `y` and `z` are
between -100 and 100. -/
example : Sim.Post (hncoMoMain moExampleWorld moExampleWords) (MoPrints toyParser (fun z : Int => (z : Rat)) ["z - x".toList, "y * x".toList]
    (fun name (z : Int) => (used RepParams.isLong (.long (-100) 100) (moExampleEnv name)).Admits z) moExampleItems) := by
  have halg : MoAlgorithm moExampleWorld moExampleItems := by
    refine ⟨paramOf_default (d := moAlgorithmDoc) (moExampleDocs_mem _ (by simp)) rfl rfl (moExample_names (by decide)),
      ⟨3, 2, ?_, ?_, by decide, by decide⟩, ?_⟩
    · exact paramOf_given (d := moMuDoc) (k := .int) (moExampleDocs_mem _ (by simp)) rfl rfl
        ⟨moExampleItems.take 4, [(moFrontDoc, none)], rfl, by decide⟩
        (means_digits _ (n := 3) (by decide) (by decide) (by decide) (by decide))
    · exact paramOf_default (d := moTournamentDoc) (moExampleDocs_mem _ (by simp)) rfl rfl (moExample_names (by decide))
    · exact fun r h => absurd h (paramOf_none (d := moRateDoc) (moExampleDocs_mem _ (by simp)) rfl rfl (moExample_names (by decide)))
  have hruns : MoRuns moExampleItems := by
    intro name hn
    simp only [List.mem_cons, List.not_mem_nil, or_false] at hn
    rcases hn with rfl | rfl | rfl <;> exact moExample_names (by decide)
  have hparse : ∀ e ∈ ["z - x".toList, "y * x".toList], ∃ p, moExampleWorld.longs e = some p := by
    intro e he
    simp only [List.mem_cons, List.not_mem_nil, or_false] at he
    rcases he with rfl | rfl
    · exact ⟨_, rfl⟩
    · exact ⟨_, rfl⟩
  have hvar : ∃ e ∈ ["z - x".toList, "y * x".toList], ∃ p, toyParser e = some p ∧ p.names ≠ [] :=
    ⟨"z - x".toList, .head _, _, rfl, by simp⟩
  have hrep : ∀ e ∈ ["z - x".toList, "y * x".toList], ∀ p, moExampleWorld.longs e = some p → ∀ name ∈ p.names,
      (used RepParams.isLong (.long (-100) 100) (moExampleEnv name)).Representable moExampleWorld.log := by
    intro e he p hp name hname
    have : used RepParams.isLong (.long (-100) 100) (moExampleEnv name) = .long 0 1 ∨
        used RepParams.isLong (.long (-100) 100) (moExampleEnv name) = .long (-100) 100 := by
      unfold moExampleEnv RepEnv.put
      by_cases hx : name = "x".toList
      · exact .inl (by rw [if_pos hx]; rfl)
      · exact .inr (by rw [if_neg hx]; rfl)
    rcases this with h | h <;> rw [h] <;> constructor <;> norm_num
  have hmain := hncoMo_long (converter := fun z : Int => (z : Rat)) moExample_command (.inl ⟨rfl, rfl⟩) moExample_log hparse moExample_env
    moExample_long rfl hrep
  exact hmain.mono (fun e h => h.front hruns halg hvar)

/-- Without options, the program fails. -/
example (ds : List Nat) : hncoMoMain moExampleWorld [] ds = .ok (.exit 1 .message) [] :=
  hncoMo_unknown (items := []) (k := 180) .done (by simp) (not_appears (by simp))
    (paramOf_default (d := moFunctionDoc) (moExampleDocs_mem _ (by simp)) rfl rfl (not_appears (by simp))) (by decide) ds

end Hnco
