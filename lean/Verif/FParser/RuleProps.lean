import Verif.FParser.RulePowi
import Mathlib.Analysis.Real.Pi.Bounds

/-!
# Property C108: the local optimizations are right, except for a few of them

A rule is right if whatever is computed by the code it matches is computed by the code which replaces it (`Refines`, in
`Verif/FParser/RunLemmas.lean`).  The numbers are those of the file of rules.
-/

namespace Hnco.FParser

noncomputable section

/-! ## Statements -/

/-- The rules which are wrong. -/
def wrongRules : List Nat := [91, 94, 95, 96, 293, 299, 354, 368, 426, 427, 456]

/-- The rules which are right if comparisons and the tests of integers are exact, and only then. -/
def toleranceRules : List Nat :=
  [45, 46, 330, 361, 362, 366, 367, 369, 370, 371, 373, 374, 375, 380, 381, 382, 429, 430, 431, 432, 434, 435]

/-! ## Lemmas -/

theorem refines_context {ε : ℝ} {l r : List Instr} (h : Refines ε l r) (before after : List Instr) :
    Refines ε (before ++ (l ++ after)) (before ++ (r ++ after)) := by
  intro vals st st'
  rw [runCode_append, runCode_append]
  cases runCode ε vals before st with
  | none => exact id
  | some s =>
    rw [Option.bind_some, Option.bind_some, runCode_append, runCode_append]
    cases hl : runCode ε vals l s with
    | none => rintro ⟨⟩
    | some s1 => rw [h vals s s1 hl]; exact id

theorem refines_steps {ε : ℝ} {P : Nat → Prop} (hP : ∀ n l r, P n → Rule ε n l r → Refines ε l r) {c c' : List Instr}
    (h : Steps ε P c c') : Refines ε c c' := by
  induction h with
  | refl => exact fun _ _ _ h => h
  | tail _ h' ih =>
    cases h' with
    | step hn hr => exact fun vals st st' h => refines_context (hP _ _ _ hn hr) _ _ vals st st' (ih vals st st' h)

theorem pow_not_int (n : ℤ) (s : Nat) (h : (13 / 10 : ℝ) * 2 ^ s = n) (hs : s ≤ 4) : False := by
  have h1 : (13 * 2 ^ s : ℝ) = 10 * n := by linarith
  have h2 : (13 * 2 ^ s : ℤ) = 10 * n := by exact_mod_cast h1
  interval_cases s <;> omega

theorem powiSearch_none : powiSearch 4 0 (13 / 10) = none := by
  have h : ∀ s : Nat, s ≤ 4 → ∀ v : ℝ, v = 13 / 10 * 2 ^ s → ¬ (v = ⌊v⌋ ∧ eligiblePowi ⌊v⌋ = true) := by
    rintro s hs v rfl ⟨h1, _⟩
    exact pow_not_int _ s h1 hs
  unfold powiSearch
  rw [if_neg (h 0 (by omega) _ (by norm_num))]
  simp only
  unfold powiSearch
  rw [if_neg (h 1 (by omega) _ (by norm_num))]
  simp only
  unfold powiSearch
  rw [if_neg (h 2 (by omega) _ (by norm_num))]
  simp only
  unfold powiSearch
  rw [if_neg (h 3 (by omega) _ (by norm_num))]
  simp only
  unfold powiSearch
  rw [if_neg (h 4 (by omega) _ (by norm_num))]

/-! ## Theorems -/

/-- C108: whatever the tolerance of comparisons, a rule which is not in one of the two lists is right. -/
theorem rule_right {ε : ℝ} (hε : 0 ≤ ε) {n : Nat} {l r : List Instr} (h : Rule ε n l r) (hn : n ∉ wrongRules)
    (ht : n ∉ toleranceRules) : Refines ε l r := by
  cases h with
  | r21 h => exact sound_21 h
  | r22 h => exact sound_22 h
  | r23 => exact sound_23
  | r42 h h1 => exact sound_42 h h1
  | r43 h => exact sound_43 h
  | r44 h => exact sound_44 h
  | r45 => exact absurd (by decide) ht
  | r46 => exact absurd (by decide) ht
  | r51 => exact sound_51
  | r55 h => exact sound_55 h
  | r56 h => exact sound_56 h
  | r57 h => exact sound_57 h
  | r58 h => exact sound_58 h
  | r59 => exact sound_59
  | r60 => exact sound_60
  | r61 => exact sound_61
  | r62 => exact sound_62
  | r65 => exact sound_65
  | r66 => exact sound_66
  | r67 => exact sound_67
  | r68 => exact sound_68
  | r70 h => exact sound_70 h
  | r76 => exact sound_76
  | r77 => exact sound_77
  | r78 => exact sound_78
  | r83 h => exact sound_83 h
  | r84 => exact sound_84
  | r88 h => exact sound_88 h
  | r89 h h1 h2 => exact sound_89 h h1 h2
  | r90 h h1 h2 => exact sound_90 h h1 h2
  | r91 => exact absurd (by decide) hn
  | r92 h h1 h2 => exact sound_92 h h1 h2
  | r93 h => exact sound_93 h
  | r94 => exact absurd (by decide) hn
  | r95 => exact absurd (by decide) hn
  | r96 => exact absurd (by decide) hn
  | r100 => exact sound_100
  | r101 h => exact sound_101 h
  | r102 => exact sound_102
  | r103 h => exact sound_103 h
  | r104 h => exact sound_104 h
  | r105 => exact sound_105
  | r106 => exact sound_106
  | r107 => exact sound_107
  | r111 => exact sound_111
  | r112 => exact sound_112
  | r113 => exact sound_113
  | r114 => exact sound_114
  | r115 => exact sound_115
  | r116 => exact sound_116
  | r117 => exact sound_117
  | r118 => exact sound_118
  | r122 => exact sound_122
  | r123 => exact sound_123
  | r124 h => exact sound_124 h
  | r125 h => exact sound_125 h
  | r127 => exact sound_127
  | r128 => exact sound_128
  | r132 => exact sound_132
  | r133 => exact sound_133
  | r134 => exact sound_134
  | r135 => exact sound_135
  | r136 => exact sound_136
  | r137 => exact sound_137
  | r138 => exact sound_138
  | r139 => exact sound_139
  | r140 => exact sound_140
  | r141 => exact sound_141
  | r145 h => exact sound_145 h
  | r146 => exact sound_146
  | r147 h => exact sound_147 h
  | r148 h => exact sound_148 h
  | r149 h => exact sound_149 h
  | r150 => exact sound_150
  | r151 => exact sound_151
  | r152 => exact sound_152
  | r153 => exact sound_153
  | r154 => exact sound_154
  | r155 => exact sound_155
  | r156 h => exact sound_156 h
  | r157 h => exact sound_157 h
  | r158 h => exact sound_158 h
  | r159 => exact sound_159
  | r160 => exact sound_160
  | r161 h => exact sound_161 h
  | r163 => exact sound_163
  | r164 => exact sound_164
  | r165 h h1 => exact sound_165 h h1
  | r198 h => exact sound_198 h
  | r199 => exact sound_199
  | r200 => exact sound_200
  | r201 => exact sound_201
  | r202 => exact sound_202
  | r203 => exact sound_203
  | r204 => exact sound_204
  | r206 => exact sound_206
  | r207 h => exact sound_207 h
  | r208 h => exact sound_208 h
  | r209 => exact sound_209
  | r210 => exact sound_210
  | r211 => exact sound_211
  | r213 => exact sound_213
  | r214 => exact sound_214
  | r216 => exact sound_216
  | r217 => exact sound_217
  | r218 => exact sound_218
  | r219 => exact sound_219
  | r220 => exact sound_220
  | r221 => exact sound_221
  | r223 => exact sound_223
  | r224 => exact sound_224
  | r226 => exact sound_226
  | r227 => exact sound_227
  | r229 => exact sound_229
  | r230 => exact sound_230
  | r231 => exact sound_231
  | r232 => exact sound_232
  | r235 => exact sound_235
  | r236 => exact sound_236
  | r238 => exact sound_238
  | r239 => exact sound_239
  | r240 => exact sound_240
  | r241 => exact sound_241
  | r242 => exact sound_242
  | r243 => exact sound_243
  | r244 => exact sound_244
  | r245 => exact sound_245
  | r246 => exact sound_246
  | r247 => exact sound_247
  | r249 => exact sound_249
  | r250 => exact sound_250
  | r251 => exact sound_251
  | r252 => exact sound_252
  | r253 => exact sound_253
  | r254 => exact sound_254
  | r255 => exact sound_255
  | r256 => exact sound_256
  | r257 => exact sound_257
  | r258 => exact sound_258
  | r259 => exact sound_259
  | r260 => exact sound_260
  | r265 => exact sound_265
  | r266 => exact sound_266
  | r267 => exact sound_267
  | r268 h => exact sound_268 h
  | r271 => exact sound_271
  | r274 => exact sound_274
  | r277 => exact sound_277
  | r278 => exact sound_278
  | r279 => exact sound_279
  | r281 => exact sound_281
  | r284 => exact sound_284
  | r285 => exact sound_285
  | r286 => exact sound_286
  | r289 => exact sound_289
  | r290 => exact sound_290
  | r291 => exact sound_291
  | r292 => exact sound_292
  | r293 => exact absurd (by decide) hn
  | r295 => exact sound_295
  | r296 => exact sound_296
  | r297 => exact sound_297
  | r298 => exact sound_298
  | r299 => exact absurd (by decide) hn
  | r301 h h1 => exact sound_301 hε h h1
  | r303 => exact sound_303
  | r304 => exact sound_304
  | r305 => exact sound_305
  | r307 h => exact sound_307 h
  | r308 h => exact sound_308 h
  | r310 => exact sound_310
  | r311 => exact sound_311
  | r313 => exact sound_313
  | r314 => exact sound_314
  | r316 h => exact sound_316 h
  | r317 => exact sound_317
  | r318 h => exact sound_318 h
  | r319 => exact sound_319
  | r321 h h1 => exact sound_321 h h1
  | r322 h h1 => exact sound_322 h h1
  | r323 h => exact sound_323 h
  | r325 h => exact sound_325 h
  | r330 => exact absurd (by decide) ht
  | r332 h => exact sound_332 h
  | r333 h => exact sound_333 h
  | r334 h => exact sound_334 h
  | r335 h => exact sound_335 h
  | r336 h => exact sound_336 h
  | r338 h => exact sound_338 h
  | r340 h => exact sound_340 h
  | r341 h => exact sound_341 h
  | r343 => exact sound_343
  | r344 => exact sound_344
  | r349 => exact sound_349
  | r354 => exact absurd (by decide) hn
  | r355 => exact sound_355
  | r359 h => exact sound_359 h
  | r360 h => exact sound_360 h
  | r361 => exact absurd (by decide) ht
  | r362 => exact absurd (by decide) ht
  | r364 h => exact sound_364 h
  | r365 h => exact sound_365 h
  | r366 => exact absurd (by decide) ht
  | r367 => exact absurd (by decide) ht
  | r368 => exact absurd (by decide) hn
  | r369 => exact absurd (by decide) ht
  | r370 => exact absurd (by decide) ht
  | r371 => exact absurd (by decide) ht
  | r373 => exact absurd (by decide) ht
  | r374 => exact absurd (by decide) ht
  | r375 => exact absurd (by decide) ht
  | r380 => exact absurd (by decide) ht
  | r381 => exact absurd (by decide) ht
  | r382 => exact absurd (by decide) ht
  | r385 => exact sound_385
  | r386 => exact sound_386
  | r387 => exact sound_387
  | r389 h => exact sound_389 h
  | r390 => exact sound_390
  | r391 h => exact sound_391 h
  | r393 h => exact sound_393 h
  | r394 h => exact sound_394 h
  | r395 h => exact sound_395 h
  | r396 h => exact sound_396 h
  | r397 h => exact sound_397 h
  | r401 => exact sound_401
  | r402 => exact sound_402
  | r404 => exact sound_404
  | r405 => exact sound_405
  | r407 => exact sound_407
  | r408 => exact sound_408
  | r409 => exact sound_409
  | r426 => exact absurd (by decide) hn
  | r427 => exact absurd (by decide) hn
  | r429 => exact absurd (by decide) ht
  | r430 => exact absurd (by decide) ht
  | r431 => exact absurd (by decide) ht
  | r432 => exact absurd (by decide) ht
  | r434 => exact absurd (by decide) ht
  | r435 => exact absurd (by decide) ht
  | r437 => exact sound_437
  | r450 => exact sound_450
  | r455 h => exact sound_455 h
  | r456 => exact absurd (by decide) hn
  | r458 => exact sound_458
  | r461 => exact sound_461
  | r464 => exact sound_464
  | r467 => exact sound_467
  | r470 => exact sound_470
  | r473 => exact sound_473
  | r475 => exact sound_475
  | r476 h => exact sound_476 h
  | r477 h => exact sound_477 h
  | r479 => exact sound_479
  | r480 => exact sound_480
  | r481 => exact sound_481
  | r490 h => exact sound_490 h
  | r491 h => exact sound_491 h
  | r492 h => exact sound_492 h
  | r494 => exact sound_494
  | r495 => exact sound_495
  | r496 => exact sound_496
  | r497 => exact sound_497
  | r498 => exact sound_498
  | r499 => exact sound_499
  | r500 => exact sound_500
  | r501 => exact sound_501
  | r502 => exact sound_502
  | r503 => exact sound_503
  | r505 h => exact sound_505 h
  | r506 h => exact sound_506 h
  | r507 => exact sound_507
  | r508 => exact sound_508
  | r509 => exact sound_509
  | r510 => exact sound_510
  | r512 => exact sound_512
  | r513 h => exact sound_513 h

/-- C108: without tolerance, every rule which is not wrong is right. -/
theorem rule_right_exact {n : Nat} {l r : List Instr} (h : Rule 0 n l r) (hn : n ∉ wrongRules) : Refines 0 l r := by
  cases h with
  | r21 h => exact sound_21 h
  | r22 h => exact sound_22 h
  | r23 => exact sound_23
  | r42 h h1 => exact sound_42 h h1
  | r43 h => exact sound_43 h
  | r44 h => exact sound_44 h
  | r45 h => exact sound_45 h
  | r46 h => exact sound_46 h
  | r51 => exact sound_51
  | r55 h => exact sound_55 h
  | r56 h => exact sound_56 h
  | r57 h => exact sound_57 h
  | r58 h => exact sound_58 h
  | r59 => exact sound_59
  | r60 => exact sound_60
  | r61 => exact sound_61
  | r62 => exact sound_62
  | r65 => exact sound_65
  | r66 => exact sound_66
  | r67 => exact sound_67
  | r68 => exact sound_68
  | r70 h => exact sound_70 h
  | r76 => exact sound_76
  | r77 => exact sound_77
  | r78 => exact sound_78
  | r83 h => exact sound_83 h
  | r84 => exact sound_84
  | r88 h => exact sound_88 h
  | r89 h h1 h2 => exact sound_89 h h1 h2
  | r90 h h1 h2 => exact sound_90 h h1 h2
  | r91 => exact absurd (by decide) hn
  | r92 h h1 h2 => exact sound_92 h h1 h2
  | r93 h => exact sound_93 h
  | r94 => exact absurd (by decide) hn
  | r95 => exact absurd (by decide) hn
  | r96 => exact absurd (by decide) hn
  | r100 => exact sound_100
  | r101 h => exact sound_101 h
  | r102 => exact sound_102
  | r103 h => exact sound_103 h
  | r104 h => exact sound_104 h
  | r105 => exact sound_105
  | r106 => exact sound_106
  | r107 => exact sound_107
  | r111 => exact sound_111
  | r112 => exact sound_112
  | r113 => exact sound_113
  | r114 => exact sound_114
  | r115 => exact sound_115
  | r116 => exact sound_116
  | r117 => exact sound_117
  | r118 => exact sound_118
  | r122 => exact sound_122
  | r123 => exact sound_123
  | r124 h => exact sound_124 h
  | r125 h => exact sound_125 h
  | r127 => exact sound_127
  | r128 => exact sound_128
  | r132 => exact sound_132
  | r133 => exact sound_133
  | r134 => exact sound_134
  | r135 => exact sound_135
  | r136 => exact sound_136
  | r137 => exact sound_137
  | r138 => exact sound_138
  | r139 => exact sound_139
  | r140 => exact sound_140
  | r141 => exact sound_141
  | r145 h => exact sound_145 h
  | r146 => exact sound_146
  | r147 h => exact sound_147 h
  | r148 h => exact sound_148 h
  | r149 h => exact sound_149 h
  | r150 => exact sound_150
  | r151 => exact sound_151
  | r152 => exact sound_152
  | r153 => exact sound_153
  | r154 => exact sound_154
  | r155 => exact sound_155
  | r156 h => exact sound_156 h
  | r157 h => exact sound_157 h
  | r158 h => exact sound_158 h
  | r159 => exact sound_159
  | r160 => exact sound_160
  | r161 h => exact sound_161 h
  | r163 => exact sound_163
  | r164 => exact sound_164
  | r165 h h1 => exact sound_165 h h1
  | r198 h => exact sound_198 h
  | r199 => exact sound_199
  | r200 => exact sound_200
  | r201 => exact sound_201
  | r202 => exact sound_202
  | r203 => exact sound_203
  | r204 => exact sound_204
  | r206 => exact sound_206
  | r207 h => exact sound_207 h
  | r208 h => exact sound_208 h
  | r209 => exact sound_209
  | r210 => exact sound_210
  | r211 => exact sound_211
  | r213 => exact sound_213
  | r214 => exact sound_214
  | r216 => exact sound_216
  | r217 => exact sound_217
  | r218 => exact sound_218
  | r219 => exact sound_219
  | r220 => exact sound_220
  | r221 => exact sound_221
  | r223 => exact sound_223
  | r224 => exact sound_224
  | r226 => exact sound_226
  | r227 => exact sound_227
  | r229 => exact sound_229
  | r230 => exact sound_230
  | r231 => exact sound_231
  | r232 => exact sound_232
  | r235 => exact sound_235
  | r236 => exact sound_236
  | r238 => exact sound_238
  | r239 => exact sound_239
  | r240 => exact sound_240
  | r241 => exact sound_241
  | r242 => exact sound_242
  | r243 => exact sound_243
  | r244 => exact sound_244
  | r245 => exact sound_245
  | r246 => exact sound_246
  | r247 => exact sound_247
  | r249 => exact sound_249
  | r250 => exact sound_250
  | r251 => exact sound_251
  | r252 => exact sound_252
  | r253 => exact sound_253
  | r254 => exact sound_254
  | r255 => exact sound_255
  | r256 => exact sound_256
  | r257 => exact sound_257
  | r258 => exact sound_258
  | r259 => exact sound_259
  | r260 => exact sound_260
  | r265 => exact sound_265
  | r266 => exact sound_266
  | r267 => exact sound_267
  | r268 h => exact sound_268 h
  | r271 => exact sound_271
  | r274 => exact sound_274
  | r277 => exact sound_277
  | r278 => exact sound_278
  | r279 => exact sound_279
  | r281 => exact sound_281
  | r284 => exact sound_284
  | r285 => exact sound_285
  | r286 => exact sound_286
  | r289 => exact sound_289
  | r290 => exact sound_290
  | r291 => exact sound_291
  | r292 => exact sound_292
  | r293 => exact absurd (by decide) hn
  | r295 => exact sound_295
  | r296 => exact sound_296
  | r297 => exact sound_297
  | r298 => exact sound_298
  | r299 => exact absurd (by decide) hn
  | r301 h h1 => exact sound_301 le_rfl h h1
  | r303 => exact sound_303
  | r304 => exact sound_304
  | r305 => exact sound_305
  | r307 h => exact sound_307 h
  | r308 h => exact sound_308 h
  | r310 => exact sound_310
  | r311 => exact sound_311
  | r313 => exact sound_313
  | r314 => exact sound_314
  | r316 h => exact sound_316 h
  | r317 => exact sound_317
  | r318 h => exact sound_318 h
  | r319 => exact sound_319
  | r321 h h1 => exact sound_321 h h1
  | r322 h h1 => exact sound_322 h h1
  | r323 h => exact sound_323 h
  | r325 h => exact sound_325 h
  | r330 h h1 => exact sound_330 h h1
  | r332 h => exact sound_332 h
  | r333 h => exact sound_333 h
  | r334 h => exact sound_334 h
  | r335 h => exact sound_335 h
  | r336 h => exact sound_336 h
  | r338 h => exact sound_338 h
  | r340 h => exact sound_340 h
  | r341 h => exact sound_341 h
  | r343 => exact sound_343
  | r344 => exact sound_344
  | r349 => exact sound_349
  | r354 => exact absurd (by decide) hn
  | r355 => exact sound_355
  | r359 h => exact sound_359 h
  | r360 h => exact sound_360 h
  | r361 h => exact sound_361 h
  | r362 h => exact sound_362 h
  | r364 h => exact sound_364 h
  | r365 h => exact sound_365 h
  | r366 h h1 => exact sound_366 h h1
  | r367 h h1 => exact sound_367 h h1
  | r368 => exact absurd (by decide) hn
  | r369 h h1 => exact sound_369 h h1
  | r370 h h1 => exact sound_370 h h1
  | r371 h h1 => exact sound_371 h h1
  | r373 h h1 => exact sound_373 h h1
  | r374 h h1 => exact sound_374 h h1
  | r375 h h1 => exact sound_375 h h1
  | r380 h h1 => exact sound_380 h h1
  | r381 h => exact sound_381 h
  | r382 h h1 => exact sound_382 h h1
  | r385 => exact sound_385
  | r386 => exact sound_386
  | r387 => exact sound_387
  | r389 h => exact sound_389 h
  | r390 => exact sound_390
  | r391 h => exact sound_391 h
  | r393 h => exact sound_393 h
  | r394 h => exact sound_394 h
  | r395 h => exact sound_395 h
  | r396 h => exact sound_396 h
  | r397 h => exact sound_397 h
  | r401 => exact sound_401
  | r402 => exact sound_402
  | r404 => exact sound_404
  | r405 => exact sound_405
  | r407 => exact sound_407
  | r408 => exact sound_408
  | r409 => exact sound_409
  | r426 => exact absurd (by decide) hn
  | r427 => exact absurd (by decide) hn
  | r429 h => exact sound_429 h
  | r430 h => exact sound_430 h
  | r431 h => exact sound_431 h
  | r432 h => exact sound_432 h
  | r434 h => exact sound_434 h
  | r435 h => exact sound_435 h
  | r437 => exact sound_437
  | r450 => exact sound_450
  | r455 h => exact sound_455 h
  | r456 => exact absurd (by decide) hn
  | r458 => exact sound_458
  | r461 => exact sound_461
  | r464 => exact sound_464
  | r467 => exact sound_467
  | r470 => exact sound_470
  | r473 => exact sound_473
  | r475 => exact sound_475
  | r476 h => exact sound_476 h
  | r477 h => exact sound_477 h
  | r479 => exact sound_479
  | r480 => exact sound_480
  | r481 => exact sound_481
  | r490 h => exact sound_490 h
  | r491 h => exact sound_491 h
  | r492 h => exact sound_492 h
  | r494 => exact sound_494
  | r495 => exact sound_495
  | r496 => exact sound_496
  | r497 => exact sound_497
  | r498 => exact sound_498
  | r499 => exact sound_499
  | r500 => exact sound_500
  | r501 => exact sound_501
  | r502 => exact sound_502
  | r503 => exact sound_503
  | r505 h => exact sound_505 h
  | r506 h => exact sound_506 h
  | r507 => exact sound_507
  | r508 => exact sound_508
  | r509 => exact sound_509
  | r510 => exact sound_510
  | r512 => exact sound_512
  | r513 h => exact sound_513 h

/-- C108: the optimizations never change what the code computes, if they only apply rules which are right, in any number and
anywhere: this is what C107 requires of them. -/
theorem optimizations_right {ε : ℝ} (hε : 0 ≤ ε) (add : List Instr → Op → List Instr)
    (h : ∀ c o, Steps ε (fun n => n ∉ wrongRules ∧ n ∉ toleranceRules) (c ++ [.op o]) (add c o)) : AddsOp ε add :=
  fun vals c o st st' hr => refines_steps (fun _ _ _ hn hr => rule_right hε hr hn.1 hn.2) (h c o) vals st st' hr

/-- C108: so the code of an expression computes its value, with such optimizations. -/
theorem optimized_code_computes_value {ε : ℝ} (hε : 0 ≤ ε) (E : Emitter)
    (h : ∀ c o, Steps ε (fun n => n ∉ wrongRules ∧ n ∉ toleranceRules) (c ++ [.op o]) (E.addOp c o)) (p : Program)
    (vals : List ℝ) (v : ℝ) (hv : p.value ε (fun x => (E.vars.zip vals).lookup x) (fun x => E.consts.lookup x) = some v) :
    evalCode ε vals (programCode E p) = some v :=
  code_computes_value ε E (optimizations_right hε E.addOp h) p vals v hv

/-- C108: without tolerance, the code of an expression computes its value, with any rules which are not wrong. -/
theorem optimized_code_computes_value_exact (E : Emitter)
    (h : ∀ c o, Steps 0 (fun n => n ∉ wrongRules) (c ++ [.op o]) (E.addOp c o)) (p : Program)
    (vals : List ℝ) (v : ℝ) (hv : p.value 0 (fun x => (E.vars.zip vals).lookup x) (fun x => E.consts.lookup x) = some v) :
    evalCode 0 vals (programCode E p) = some v :=
  code_computes_value 0 E
    (fun _ c o _ _ hr => refines_steps (fun _ _ _ hn hr => rule_right_exact hr hn) (h c o) _ _ _ hr) p vals v hv

/-- C108 (negative part): each of the wrong rules is wrong, even without tolerance: there are a case where it applies and a stack
on which the first code computes something which the second does not. -/
theorem wrong_rules (n : Nat) (hn : n ∈ wrongRules) : ∃ l r, Rule 0 n l r ∧ ¬ Refines 0 l r := by
  simp only [wrongRules, List.mem_cons, List.not_mem_nil, or_false] at hn
  rcases hn with rfl | rfl | rfl | rfl | rfl | rfl | rfl | rfl | rfl | rfl | rfl
  · refine ⟨_, _, .r91 (x := 0) (a := .div) (b := .fn .exp) rfl rfl rfl rfl rfl, fun h => ?_⟩
    have := h [] [0, 1] [0] (by run_code; simp)
    revert this
    run_code; simp
  · refine ⟨_, _, .r94 (x := 0) (c := 0) (a := .div) (b := .add) rfl rfl rfl rfl rfl, fun h => ?_⟩
    have := h [1] [0, 1] [0] (by run_code; simp)
    revert this
    run_code; simp
  · refine ⟨_, _, .r95 (x := 0) (a := .add) (b := .div) (c := .fn .exp) rfl rfl rfl rfl rfl rfl rfl, fun h => ?_⟩
    have := h [] [0, 1, 1] [0] (by run_code; simp)
    revert this
    run_code; simp
  · refine ⟨_, _, .r96 (y := 1) (x := 0) (a := .div) (b := .add) rfl rfl rfl rfl rfl, fun h => ?_⟩
    have := h [] [0, 1] [0] (by run_code; simp)
    revert this
    run_code; simp
  · refine ⟨_, _, .r293 (x := 1) (b := 0), fun h => ?_⟩
    have := h [0] [0] [1] (by run_code; simp)
    revert this
    run_code
    norm_num
  · refine ⟨_, _, .r299 (x := 1), fun h => ?_⟩
    have := h [] [0, 0] [1] (by run_code; simp)
    revert this
    run_code
    norm_num
  · refine ⟨_, _, .r354, fun h => ?_⟩
    have h0 : Complex.arg ⟨0, 0⟩ = 0 := by
      rw [show (⟨0, 0⟩ : ℂ) = 0 from rfl, Complex.arg_zero]
    have := h [] [0, 0] [0] (by run_code; simp [h0])
    revert this
    run_code; simp
  · refine ⟨_, _, .r368 (y := 48) (x := 1) (a := .greater) (by norm_num) (by norm_num) rfl, fun h => ?_⟩
    have hp : PowDef (-2) 48 := Or.inr (Or.inr ⟨by norm_num, 48, by norm_num⟩)
    have hv : ((-2 : ℝ) ^ (48 : ℝ)) = 2 ^ 48 := by
      rw [show (48 : ℝ) = ((48 : ℕ) : ℝ) by norm_num, Real.rpow_natCast]; norm_num
    have := h [] [-2] [1] (by run_code; refine ⟨hp, ?_⟩; rw [hv]; norm_num [ofBool])
    revert this
    run_code
    norm_num [ofBool]
  · refine ⟨_, _, .r426 (x := -1) (by norm_num), fun h => ?_⟩
    have := h [] [0] [0] (by run_code; norm_num [ofBool])
    revert this
    run_code
    norm_num [ofBool, fpTruth]
  · refine ⟨_, _, .r427 (x := -1) (by norm_num), fun h => ?_⟩
    have := h [] [0] [1] (by run_code; norm_num [ofBool])
    revert this
    run_code
    norm_num [ofBool, fpTruth]
  · refine ⟨_, _, .r456 (x := 13 / 10) (a := .fn .abs) rfl powiSearch_none, fun h => ?_⟩
    have := h [] [0] [0] (by
      run_code
      refine ⟨Or.inr (Or.inl ⟨abs_zero, by norm_num⟩), ?_⟩
      rw [abs_zero, Real.zero_rpow (by norm_num)])
    revert this
    run_code; simp

/-- C108 (negative part): the second list is not too long either: each of its rules is wrong with some tolerance. -/
theorem tolerance_rules (n : Nat) (hn : n ∈ toleranceRules) : ∃ ε > 0, ∃ l r, Rule ε n l r ∧ ¬ Refines ε l r := by
  have even1 : ∀ v : ℝ, IsEvenInt 1 v := fun v => by
    unfold IsEvenInt
    rw [abs_of_nonneg (Int.fract_nonneg _)]
    exact (Int.fract_lt_one _).le
  have int1 : ∀ v : ℝ, IsInt 1 v := fun v => by
    unfold IsInt
    rw [abs_of_nonneg (Int.fract_nonneg _)]
    exact (Int.fract_lt_one _).le
  have hp : PowDef (-1) 2 := Or.inr (Or.inr ⟨by norm_num, 2, by norm_num⟩)
  have hp1 : ∀ v : ℝ, PowDef 1 v := fun v => Or.inl one_pos
  have h3 : (-1 : ℝ) ^ (3 : ℝ) = -1 := by
    rw [show (3 : ℝ) = ((3 : ℕ) : ℝ) by norm_num, Real.rpow_natCast]; norm_num
  have h3' : (2 : ℝ) * (3 / 2) = 3 := by norm_num
  have h3'' : (3 / 2 : ℝ) + 3 / 2 = 3 := by norm_num
  have he : (2 : ℝ) < Real.exp 1 := by
    have := Real.add_one_lt_exp (x := 1) one_ne_zero
    linarith
  have hl2 : Real.log 2 ≠ 0 := (Real.log_pos (by norm_num)).ne'
  have hl10 : Real.log 10 ≠ 0 := (Real.log_pos (by norm_num)).ne'
  simp only [toleranceRules, List.mem_cons, List.not_mem_nil, or_false] at hn
  rcases hn with rfl | rfl | rfl | rfl | rfl | rfl | rfl | rfl | rfl | rfl | rfl | rfl | rfl | rfl | rfl | rfl | rfl | rfl | rfl |
    rfl | rfl | rfl
  · refine ⟨1, one_pos, _, _, .r45 (x := 3 / 2) (int1 _), fun h => ?_⟩
    have := h [] [2, -1] [1] (by run_code; simp [hp, hp1])
    revert this
    run_code
    rw [h3', h3]
    norm_num
  · refine ⟨1, one_pos, _, _, .r46 (x := 3 / 2) (even1 _), fun h => ?_⟩
    have := h [] [-1] [1] (by run_code; simp [hp1])
    revert this
    run_code
    rw [h3'', h3]
    norm_num
  · refine ⟨1, one_pos, _, _, .r330 (y := 2) (x := 3 / 2) (fun h => h.2 (even1 _)) (fun h => h.2 (int1 _)), fun h => ?_⟩
    have := h [] [-1] [1] (by run_code; simp [hp, hp1])
    revert this
    run_code
    rw [h3', h3]
    norm_num
  · refine ⟨1 / 4, by norm_num, _, _, .r361 (x := 0) rfl, fun h => ?_⟩
    have := h [] [1 / 2] [1] (by run_code; norm_num [ofBool, abs_of_pos])
    revert this
    run_code
    norm_num [ofBool, abs_of_pos]
  · refine ⟨1 / 4, by norm_num, _, _, .r362 (x := 0) rfl, fun h => ?_⟩
    have := h [] [1 / 2] [0] (by run_code; norm_num [ofBool, abs_of_pos])
    revert this
    run_code
    norm_num [ofBool, abs_of_pos]
  · refine ⟨1, one_pos, _, _, .r366 (y := 2) (x := 0) (a := .equal) (by norm_num) rfl, fun h => ?_⟩
    have := h [] [1] [0] (by run_code; norm_num [ofBool, abs_of_pos])
    revert this
    run_code
    norm_num [ofBool, abs_of_pos]
  · refine ⟨1, one_pos, _, _, .r367 (y := -2) (x := 0) (a := .equal) (by norm_num) rfl, fun h => ?_⟩
    have := h [] [1] [0] (by run_code; norm_num [ofBool, abs_of_pos])
    revert this
    simp only [oppositeComparison]
    run_code
    norm_num [ofBool, abs_of_pos]
  · refine ⟨1, one_pos, _, _, .r369 (x := 2 ^ 2) (a := .equal) (by norm_num) rfl, fun h => ?_⟩
    have := h [] [5 / 2] [0] (by run_code; norm_num [ofBool, abs_of_pos])
    revert this
    run_code
    rw [Real.sqrt_sq (by norm_num)]
    norm_num [ofBool, abs_of_pos]
  · refine ⟨1, one_pos, _, _, .r370 (x := 1) (a := .equal) (by norm_num) rfl, fun h => ?_⟩
    have h1 : ¬ |Real.exp 1 - 1| ≤ 1 := by rw [abs_of_pos (by linarith)]; linarith
    have := h [] [1] [0] (by run_code; rw [decide_eq_false h1]; rfl)
    revert this
    run_code
    norm_num [ofBool]
  · refine ⟨2, two_pos, _, _, .r371 (x := 1) (a := .equal) (by norm_num) rfl, fun h => ?_⟩
    have := h [] [2] [0] (by run_code; norm_num [ofBool, abs_of_pos])
    revert this
    run_code
    norm_num [ofBool]
  · refine ⟨1, one_pos, _, _, .r373 (x := 0) (a := .equal) (b := .fn .abs) rfl rfl, fun h => ?_⟩
    have h1 : ¬ |Real.exp 1 - Real.exp 0| ≤ 1 := by rw [Real.exp_zero, abs_of_pos (by linarith)]; linarith
    have := h [] [Real.exp 1] [1] (by run_code; rw [abs_of_pos (Real.exp_pos 1)]; simp [ofBool, Real.exp_pos])
    revert this
    run_code
    rw [abs_of_pos (Real.exp_pos 1), decide_eq_false h1]
    norm_num [ofBool]
  · refine ⟨2, two_pos, _, _, .r374 (x := 0) (a := .equal) (b := .fn .abs) rfl rfl, fun h => ?_⟩
    have h1 : Real.log (2 ^ 2) * (1 / Real.log 2) = 2 := by rw [Real.log_pow]; push_cast; field_simp
    have := h [] [2 ^ 2] [1] (by run_code; rw [abs_of_pos (by norm_num), h1]; norm_num [ofBool])
    revert this
    run_code
    norm_num [ofBool]
  · refine ⟨1, one_pos, _, _, .r375 (x := 0) (a := .equal) (b := .fn .abs) rfl rfl, fun h => ?_⟩
    have h1 : Real.log 10 * (1 / Real.log 10) = 1 := by field_simp
    have := h [] [10] [1] (by run_code; rw [abs_of_pos (by norm_num), h1]; norm_num [ofBool])
    revert this
    run_code
    norm_num [ofBool]
  · refine ⟨4 / 5, by norm_num, _, _, .r380 (x := 0) (a := .equal) (by rw [abs_zero]; positivity) rfl, fun h => ?_⟩
    have h1 : |Real.pi / 4 - 0| ≤ 4 / 5 := by
      rw [sub_zero, abs_of_pos (by positivity)]
      have := Real.pi_lt_d2
      norm_num at this
      linarith
    have := h [] [1] [1] (by run_code; rw [Real.arctan_one, decide_eq_true h1]; rfl)
    revert this
    run_code
    norm_num [ofBool]
  · refine ⟨1, one_pos, _, _, .r381 (x := 0) (a := .equal) rfl, fun h => ?_⟩
    have h0 : 1 < Real.sinh 1 := Real.self_lt_sinh_iff.mpr one_pos
    have h1 : ¬ |Real.sinh 1 - 0| ≤ 1 := by rw [sub_zero, abs_of_pos (by linarith)]; linarith
    have := h [] [1] [0] (by run_code; rw [decide_eq_false h1]; rfl)
    revert this
    run_code
    norm_num [ofBool]
  · have h0 : Real.tanh 1 < 1 := (Real.tanh_bijOn.mapsTo (x := 1) trivial).2
    have h1 : 0 < Real.tanh 1 := by
      rw [Real.tanh_eq_sinh_div_cosh]
      exact div_pos (Real.sinh_pos_iff.mpr one_pos) (Real.cosh_pos 1)
    refine ⟨Real.tanh 1, h1, _, _, .r382 (x := 0) (a := .equal) (by norm_num) rfl, fun h => ?_⟩
    have h2 : |Real.tanh 1 - 0| ≤ Real.tanh 1 := by rw [sub_zero, abs_of_pos h1]
    have h4 : ¬ |(1 : ℝ) - 0| ≤ Real.tanh 1 := by rw [sub_zero, abs_one]; linarith
    have := h [] [1] [1] (by run_code; rw [decide_eq_true h2]; rfl)
    revert this
    run_code
    rw [Real.artanh_zero, decide_eq_false h4]
    norm_num [ofBool]
  · refine ⟨1 / 4, by norm_num, _, _, .r429 (x := 1 / 2) rfl, fun h => ?_⟩
    have := h [] [3 / 8] [0] (by run_code; norm_num [ofBool])
    revert this
    run_code
    norm_num [ofBool, fpAbsTruth]
  · refine ⟨1 / 4, by norm_num, _, _, .r430 (x := 1 / 2) rfl, fun h => ?_⟩
    have := h [] [3 / 8] [1] (by run_code; norm_num [ofBool])
    revert this
    run_code
    norm_num [ofBool, fpAbsTruth]
  · refine ⟨1 / 4, by norm_num, _, _, .r431 (x := -1 / 2) rfl, fun h => ?_⟩
    have := h [] [-3 / 8] [0] (by run_code; norm_num [ofBool])
    revert this
    run_code
    norm_num [ofBool, fpAbsTruth]
  · refine ⟨1 / 4, by norm_num, _, _, .r432 (x := -1 / 2) rfl, fun h => ?_⟩
    have := h [] [-3 / 8] [1] (by run_code; norm_num [ofBool])
    revert this
    run_code
    norm_num [ofBool, fpAbsTruth]
  · refine ⟨1, one_pos, _, _, .r434 (x := 1) (even1 _), fun h => ?_⟩
    have := h [] [-1] [1] (by run_code; simp [hp1])
    revert this
    run_code
    norm_num
  · refine ⟨1, one_pos, _, _, .r435 (x := 1) (even1 _), fun h => ?_⟩
    have := h [] [-1, 1] [1] (by run_code; simp [hp1])
    revert this
    run_code
    norm_num

/-- C108 (negative part): the tolerance of HNCO is enough: `x*x = 0` is true at `10 ^ (-7)`, whose
square is less than the tolerance, but it is replaced by `x = 0`, which is false. -/
theorem tolerance_matters : ∃ l r, Rule (10 ^ (-12 : ℤ)) 361 l r ∧ ¬ Refines (10 ^ (-12 : ℤ)) l r := by
  refine ⟨_, _, .r361 (x := 0) rfl, fun h => ?_⟩
  have h1 : |(10 : ℝ) ^ (-7 : ℤ) * 10 ^ (-7 : ℤ) - 0| ≤ 10 ^ (-12 : ℤ) := by
    rw [sub_zero, abs_of_nonneg (by positivity)]; norm_num
  have h2 : ¬ |(10 : ℝ) ^ (-7 : ℤ) - 0| ≤ 10 ^ (-12 : ℤ) := by
    rw [sub_zero, abs_of_nonneg (by positivity)]; norm_num
  have := h [] [10 ^ (-7 : ℤ)] [1] (by run_code; rw [decide_eq_true h1]; rfl)
  revert this
  run_code
  rw [decide_eq_false h2]
  simp [ofBool]

/-- The optimizations made on the expression below: only rule 299 applies. -/
def rule299 (c : List Instr) (o : Op) : List Instr :=
  match o, c.reverse with
  | .add, .imm x :: .op .rsub :: .op .neg :: before => before.reverse ++ [.imm (-x), .op .add, .op .rsub]
  | _, _ => c ++ [.op o]

/-- C108 (negative part): a wrong rule makes the value of an expression wrong: the value of `-x+-y+3` is 3 at the origin, but the
code computes −3. -/
theorem sum_of_negations (ε : ℝ) :
    let E : Emitter := ⟨rule299, [['x'], ['y']], []⟩
    let p : Program := ⟨[], .bin .add (.bin .add (.neg (.var ['x'])) (.neg (.var ['y']))) (.lit 3)⟩
    (∀ c o, Steps ε (fun n => n = 299) (c ++ [.op o]) (E.addOp c o)) ∧
      parseFunction ⟨E.vars, []⟩ "-x+-y+3".toList = .ok p ∧
      p.value ε (fun z => (E.vars.zip [0, 0]).lookup z) (fun z => E.consts.lookup z) = some 3 ∧
      evalCode ε [0, 0] (programCode E p) = some (-3) := by
  refine ⟨fun c o => ?_, by decide +kernel, ?_, ?_⟩
  · simp only [rule299]
    split
    · next x before hc =>
      have : c = before.reverse ++ [.op .neg, .op .rsub, .imm x] := by
        rw [← List.reverse_reverse c, hc]; simp
      rw [this]
      have h := Step.step (before := before.reverse) (after := []) (P := fun n => n = 299) rfl (Rule.r299 (ε := ε) (x := x))
      simpa using Steps.tail (Steps.refl _) h
    · exact Steps.refl _
  · simp [Program.value, valueAfter, Expr.value, List.lookup, BinOp.apply]
  · have : programCode ⟨rule299, [['x'], ['y']], []⟩
        ⟨[], .bin .add (.bin .add (.neg (.var ['x'])) (.neg (.var ['y']))) (.lit 3)⟩ =
        [.var 0, .var 1, .imm (-3), .op .add, .op .rsub] := by
      simp [programCode, emitProgram, emit, emitRaw, emitVar, asAdd, finish, stepAdd, EState.popImm, takeLeft, rule299,
        takeRight, takeUnary, EState.popImmOp, EState.popOp, EState.addImm, EState.addOp, flushAdd, List.idxOf, List.findIdx,
        List.findIdx.go]
    rw [this, evalCode]
    simp [runCode, runInstr, evalOp]

/-! ## Examples -/

/-- The hypotheses of `rule_right`: `x^(1/2)` is a square root, `x*5*2` is `x*10`, and `-(x*2)` is `x*(-2)`. -/
example : Rule (10 ^ (-12 : ℤ)) 332 [.imm (1 / 2), .op (.fn .pow)] [.op (.fn .sqrt)] ∧ 332 ∉ wrongRules ∧ 332 ∉ toleranceRules :=
  ⟨.r332 rfl, by decide, by decide⟩

example : Rule 0 128 [.imm 5, .op .mul, .imm 2, .op .mul] [.imm (5 * 2), .op .mul] := .r128

example : runCode 0 [] [.imm 5, .op .mul, .imm 2, .op .mul] [7] = some [70] := by run_code; norm_num

/-- An emitter which satisfies the hypothesis of `optimized_code_computes_value`, and which really optimizes: it removes double
negations. -/
def negEmitter (vars : List (List Char)) : Emitter where
  addOp c o :=
    match o, c.reverse with
    | .neg, .op .neg :: before => before.reverse
    | _, _ => c ++ [.op o]
  vars := vars
  consts := []

example (ε : ℝ) (vars : List (List Char)) (c : List Instr) (o : Op) :
    Steps ε (fun n => n ∉ wrongRules ∧ n ∉ toleranceRules) (c ++ [.op o]) ((negEmitter vars).addOp c o) := by
  simp only [negEmitter]
  split
  · next before hc =>
    have : c = before.reverse ++ [.op .neg] := by
      rw [← List.reverse_reverse c, hc]; simp
    rw [this]
    have h := Step.step (before := before.reverse) (after := []) (P := fun n => n ∉ wrongRules ∧ n ∉ toleranceRules)
      ⟨by decide, by decide⟩ (Rule.r61 (ε := ε))
    simpa using Steps.tail (Steps.refl _) h
  · exact Steps.refl _

end

end Hnco.FParser
