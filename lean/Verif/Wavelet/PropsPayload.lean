import Verif.Wavelet.PropsShared
import Verif.Main.PropsSynth

/-! C121: a payload sounds alike wherever it is. -/

namespace Haptics.Wavelet
open Haptics Haptics.Spiht

/-- **C121** The same payload becomes the same samples, whichever block of whichever band it is, if the blocks of the two bands have
the same length and the bands are decoded: other payloads, be they damaged, missing or exchanged, have no influence. -/
theorem c121_payload (inverse : Nat → List Rat → List Rat) (timescale : Nat) (d d' : Spiht.Decoder)
    (hd : d.counters = resetCounters) (hd' : d'.counters = resetCounters) (upper blockLength : Nat)
    (effects effects' : List (Nat × List UInt8)) (out out' : List (Nat × List Rat))
    (h : transformBand inverse ⟨upper, blockLength, effects⟩ timescale d = .ok out)
    (h' : transformBand inverse ⟨upper, blockLength, effects'⟩ timescale d' = .ok out')
    (i j : Nat) (p p' : Nat × List UInt8) (hi : effects[i]? = some p) (hj : effects'[j]? = some p') (hp : p.2 = p'.2) :
    ∃ q q', out[i]? = some q ∧ out'[j]? = some q' ∧ q.2 = q'.2 := by
  have key : ∀ (d : Spiht.Decoder), d.counters = resetCounters → ∀ effects out,
      transformBand inverse ⟨upper, blockLength, effects⟩ timescale d = .ok out → ∀ (i : Nat) (p : Nat × List UInt8),
      effects[i]? = some p → ∃ q, out[i]? = some q ∧
        blockAlone inverse (decodedLength blockLength upper) p.2 = .ok q.2 := by
    intro d hd effects out h i p hi
    obtain ⟨h1, h2, -⟩ := sharedLoop_alone inverse (decodedLength blockLength upper) timescale upper effects 0 d hd
    unfold transformBand at h
    simp only at h
    rw [h] at h2
    generalize sharedLoop inverse (decodedLength blockLength upper) timescale upper effects 0 d = g at h1 h2
    match g with
    | .error x => simp [Except.map] at h2
    | .ok r =>
      simp only [Except.map, Except.ok.injEq] at h1 h2
      subst h2
      obtain ⟨-, hg⟩ := SynthMain.mapE_get _ _ _ h1.symm
      obtain ⟨b, hb, hf⟩ := hg i p hi
      rw [List.getElem?_map, Option.map_eq_some_iff] at hb
      obtain ⟨q, hq, rfl⟩ := hb
      exact ⟨q, hq, hf⟩
  obtain ⟨q, hq, hf⟩ := key d hd effects out h i p hi
  obtain ⟨q', hq', hf'⟩ := key d' hd' effects' out' h' j p' hj
  rw [hp, hf'] at hf
  exact ⟨q, q', hq, hq', (Except.ok.inj hf).symm⟩

/-- A payload as the first block of a band, and behind a damaged one. -/
example : ((transformBand (fun _ l => l) ⟨8000, 2, [(0, [34, 112, 147, 145, 170, 2])]⟩ 1000 {}).toOption.map
      (fun l => (l.map (·.2)).getD 0 [])) =
    ((transformBand (fun _ l => l) ⟨8000, 2, [(0, [34, 112, 19]), (2, [34, 112, 147, 145, 170, 2])]⟩ 1000 {}).toOption.map
      (fun l => (l.map (·.2)).getD 1 [])) ∧
    (transformBand (fun _ l => l) ⟨8000, 2, [(0, [34, 112, 19]), (2, [34, 112, 147, 145, 170, 2])]⟩ 1000 {}).toOption.isSome
      = true := by decide +kernel

end Haptics.Wavelet
