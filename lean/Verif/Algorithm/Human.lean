import Verif.Algorithm.Alg

/-!
# Model of the human algorithm

Models `lib/hnco/algorithms/human.hh` and `human.cc`.  The standard input is the list of the words which have not been read.
-/

namespace Hnco

open Outcome

variable {K : Type}

/-- `_candidate` (`human.hh:37`) and the standard input. -/
structure HumanData where
  candidate : BV
  input : List (List Char)

/-- `parse_bit_vector` (`human.cc:33-54`).  At the end of the input `std::cin >> str` leaves `str` empty.  A loop which is not
over after `fuel` iterations gives no result.  Not modelled: what is printed. -/
def humanParse (n : Nat) : Nat → Alg (AlgState K HumanData) Unit
  | 0 => fun _ _ => .out
  | fuel + 1 => do
    let s ← Alg.get
    let str := s.data.input.headD []
    Alg.modify (fun s => { s with data := ⟨s.data.candidate, s.data.input.tail⟩ })
    if str = "quit".toList then Alg.lift (.throw .lastEvaluation)
    else do
      let x ← Alg.lift (bvFromString str)
      Alg.modify (fun s => { s with data := ⟨x, s.data.input⟩ })
      if x.length < n then humanParse n fuel
      else if n < x.length then Alg.modify (fun s => { s with data := ⟨x.take n, s.data.input⟩ })
      else pure ()

/-- `init` (`human.cc:57-66`). -/
def humanInit (env : Env K) (n fuel : Nat) : Alg (AlgState K HumanData) Unit := do
  humanParse n fuel
  let s ← Alg.get
  let v ← evaluate env s.data.candidate
  setSolution s.data.candidate v

/-- `iterate` (`human.cc:69-76`). -/
def humanIterate [LT K] [DecidableLT K] (env : Env K) (n fuel : Nat) : Alg (AlgState K HumanData) Unit := do
  humanParse n fuel
  let s ← Alg.get
  let v ← evaluate env s.data.candidate
  updateSolution s.data.candidate v

/-- `maximize` (`iterative-algorithm.cc:52-57`). -/
def humanMaximize [LT K] [DecidableLT K] (env : Env K) (n : Nat) (numIterations : Int) (fuel : Nat) :
    Alg (AlgState K HumanData) Unit :=
  algLoop (humanInit env n fuel) (humanIterate env n fuel) numIterations fuel

end Hnco
