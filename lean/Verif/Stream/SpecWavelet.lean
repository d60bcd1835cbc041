import Verif.Stream.SpecData

/-
C58–C59: what a receiver of a wavelet band and of composite effects is entitled to.  Nothing here refers
to the packet writers or readers.
-/
namespace Haptics

/-- A wavelet effect as received: the blocks are identified anew. -/
def Effect.receivedWavelet (id : Int) (e : Effect) : Effect :=
  { id := id, position := e.position, semantic := e.semantic, effectType := EffectType.Basis
    waveletBitstream := e.waveletBitstream }

/-- The blocks of a wavelet band are basis effects that follow each other without gaps, as
`WaveletEncoder::encodeSignal` makes them, and fit the fields of a packet. -/
structure WaveletBlocks (blockLength : Int) (semantic : Option String) (l : List Effect) : Prop where
  position : ∀ (j : Nat) (e : Effect), l[j]? = some e → e.position = j * blockLength
  semantic : ∀ e ∈ l, e.semantic = semantic
  size : ∀ e ∈ l, e.waveletBitstream.length < 65536

/-- Identifiers counted up from `n`. -/
def numberedFrom (n : Int) : List Effect → List Effect
  | [] => []
  | e :: l => e.receivedWavelet n :: numberedFrom (n + 1) l

/-- Where a receiver puts block `k`, when it has been told that the blocks have `bl` samples, that the band reaches up to `up`,
and that there are `ts` ticks in a second: it takes the upper limit of the band for the number of samples in a second. -/
def blockStart (ts bl up : Int) (k : Nat) : Int := ts * bl * k / up

/-- The blocks, from block `j` on, as such a receiver has them; identifiers counted up from `n`. -/
def placedFrom (ts bl up : Int) (n : Int) (j : Nat) : List Effect → List Effect
  | [] => []
  | e :: l => { e.receivedWavelet n with position := blockStart ts bl up j } :: placedFrom ts bl up (n + 1) (j + 1) l

mutual
/-- The effects a composite effect stands for when it starts at `t`, in order: its parts are placed
relative to it. -/
def Effect.placed (t : Int) : Effect → List Effect
  | ⟨id, position, phase, semantic, keyframes, baseSignal, effectType, timeline, waveletBitstream⟩ =>
    if effectType = EffectType.Composite then placedAll (t + position) timeline
    else [⟨id, t + position, phase, semantic, keyframes, baseSignal, effectType, timeline,
      waveletBitstream⟩]
/-- The same for a list of effects. -/
def placedAll (t : Int) : List Effect → List Effect
  | [] => []
  | e :: l => e.placed t ++ placedAll t l
end

mutual
/-- Every composite effect, at any depth, starts together with what contains it. -/
def Effect.FlatStart : Effect → Prop
  | ⟨_, position, _, _, _, _, effectType, timeline, _⟩ =>
    effectType = EffectType.Composite → position = 0 ∧ flatStartAll timeline
/-- The same for a list of effects. -/
def flatStartAll : List Effect → Prop
  | [] => True
  | e :: l => e.FlatStart ∧ flatStartAll l
end

end Haptics
