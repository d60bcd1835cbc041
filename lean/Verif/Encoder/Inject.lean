import Verif.Types.Ops

/-! How the IVS and AHAP encoders distribute effects to bands. -/

namespace Haptics

/-- `getKeyframeAt(getKeyframesSize() - 1).getRelativePosition().value()`: `at` and `value` throw. -/
def Effect.lastKeyframePosition (e : Effect) : Except Err Int :=
  match e.keyframes.getLast? with
  | none => .error .throw
  | some k => match k.relativePosition with
    | none => .error .throw
    | some p => .ok p

/-- IvsEncoder.cpp:141-151, AhapEncoder.cpp:167-175: into the first vectorial band that is free, or into a new one. -/
def Channel.inject (lower upper : Int) (c : Channel) (e : Effect) : Except Err Channel :=
  match e.lastKeyframePosition with
  | .error x => .error x
  | .ok length => match c.findBandAvailable e.position length BandType.VectorialWave with
    | .error x => .error x
    | .ok (some j) => .ok { c with bands := c.bands.modify j (·.addEffect e) }
    | .ok none =>
      let b : Band :=
        { bandType := BandType.VectorialWave, lowerFrequencyLimit := lower, upperFrequencyLimit := upper }
      .ok { c with bands := c.bands ++ [b.addEffect e] }

/-- The loop over all effects. -/
def Channel.injectAll (lower upper : Int) : Channel → List Effect → Except Err Channel
  | c, [] => .ok c
  | c, e :: l => match c.inject lower upper e with
    | .error x => .error x
    | .ok c => c.injectAll lower upper l

end Haptics
