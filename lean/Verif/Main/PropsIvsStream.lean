import Verif.Main.SpecIvsStream
import Verif.Main.IvsBands
import Verif.Main.Streamed
import Mathlib.Order.Interval.Finset.Basic
import Mathlib.Data.Int.Interval

/-! C95: an IVS file that is encoded to a stream. -/

namespace Haptics.Imported
open Haptics Haptics.Accepted
open Haptics.EncoderMain (blank)

/-! ### How many events there are in a packet -/

theorem count_length {xs : List Int} {n : Nat} (hc : ∀ x, xs.count x ≤ n) {t : Int} {d : Nat}
    (h : ∀ x ∈ xs, t ≤ x ∧ x < t + d) : xs.length ≤ n * d := by
  have h1 := Multiset.toFinset_sum_count_eq (xs : Multiset Int)
  rw [Multiset.coe_card] at h1
  have h2 : (xs : Multiset Int).toFinset ⊆ Finset.Ico t (t + d) := fun x hx => by
    rw [Multiset.mem_toFinset, Multiset.mem_coe] at hx
    exact Finset.mem_Ico.mpr (h x hx)
  have h3 := Finset.card_le_card h2
  rw [Int.card_Ico] at h3
  have h4 : ∑ x ∈ (xs : Multiset Int).toFinset, (xs : Multiset Int).count x ≤ (xs : Multiset Int).toFinset.card * n := by
    rw [← smul_eq_mul]
    exact Finset.sum_le_card_nsmul _ _ _ (fun x _ => by rw [Multiset.coe_count]; exact hc x)
  rw [h1] at h4
  have h5 : (t + d - t).toNat = d := by omega
  rw [h5] at h3
  calc xs.length ≤ _ := h4
    _ ≤ d * n := Nat.mul_le_mul_right _ h3
    _ = n * d := Nat.mul_comm _ _

/-- Effects that do not overlap have no more events at one time than one of them. -/
theorem sequential_count {n : Nat} {es : List Effect} (hs : es.Pairwise (fun x y => x.position + x.length < y.position))
    (hb : ∀ e ∈ es, ∀ t ∈ e.eventTimes, e.position ≤ t ∧ t ≤ e.position + e.length)
    (hn : ∀ e ∈ es, e.eventTimes.length ≤ n) (x : Int) : (es.flatMap Effect.eventTimes).count x ≤ n := by
  induction es with
  | nil => simp
  | cons e es ih =>
    obtain ⟨p1, p2⟩ := List.pairwise_cons.mp hs
    rw [List.flatMap_cons, List.count_append]
    by_cases hx : x ∈ e.eventTimes
    · have h0 : (es.flatMap Effect.eventTimes).count x = 0 := by
        rw [List.count_eq_zero]
        intro hm
        obtain ⟨e', he', hm⟩ := List.mem_flatMap.mp hm
        have h1 := hb e List.mem_cons_self x hx
        have h2 := hb e' (List.mem_cons_of_mem _ he') x hm
        have := p1 e' he'
        omega
      rw [h0]
      exact (List.count_le_length).trans (hn e List.mem_cons_self)
    · rw [List.count_eq_zero.mpr hx, Nat.zero_add]
      exact ih p2 (fun e' he' => hb e' (List.mem_cons_of_mem _ he')) (fun e' he' => hn e' (List.mem_cons_of_mem _ he'))

theorem sequential_dense {n : Nat} {es : List Effect} (hs : es.Pairwise (fun x y => x.position + x.length < y.position))
    (hb : ∀ e ∈ es, ∀ t ∈ e.eventTimes, e.position ≤ t ∧ t ≤ e.position + e.length)
    (hn : ∀ e ∈ es, e.eventTimes.length ≤ n) (t : Int) (d : Nat) : eventsIn t (t + d) es ≤ n * d := by
  unfold eventsIn
  refine count_length (fun x => ?_) (t := t) (fun x hx => ?_)
  · exact (List.Sublist.count_le x List.filter_sublist).trans (sequential_count hs hb hn x)
  · exact of_decide_eq_true (List.mem_filter.mp hx).2

/-! ### The effects of IVS files -/

theorem frequency_range {p f : Int} (hp : 1 ≤ p) (h : Ivs.frequency p = .ok f) : 0 ≤ f ∧ f ≤ 1000 := by
  obtain ⟨n, rfl⟩ := Int.eq_ofNat_of_zero_le (by omega : 0 ≤ p)
  rw [Ivs.c72_frequency n (by omega)] at h
  obtain rfl := Except.ok.inj h
  have := Nat.div_le_self 1000 n
  exact ⟨Int.natCast_nonneg _, by exact_mod_cast this⟩

theorem played_fresh {f : Ivs.File} {ts : Nat} {t : Ivs.Timeline} (hb : Ivs.Brief f ts t) {e : Effect}
    (h : Played f.basisEffects ts t.launchEvents e) (hp : 0 ≤ e.position ∧ e.position < 2 ^ 24 - 2 ^ 16) :
    FreshEffect BandType.VectorialWave e ∧ 0 ≤ e.length ∧ e.eventTimes.length ≤ 6 := by
  obtain ⟨l, hl, b, hbm, hn, signal, freq, D, d1, d2, s1, s2, s3, s4, s5, s6⟩ := played_parts h
  have hD := hb.short l hl b hbm hn D d1
  have hF : 0 ≤ freq ∧ freq < 2 ^ 16 := by
    rcases s2 with ⟨p1, p2⟩ | rfl
    · have := frequency_range (hb.period l hl b hbm hn p1) p2
      omega
    · decide
  have hid : e.id = -1 := congrArg Effect.id s3
  have hbasis : e.effectType = EffectType.Basis := congrArg Effect.effectType s3
  have hsem : e.semantic = none := congrArg Effect.semantic s3
  have hsig : e.baseSignal = some signal := congrArg Effect.baseSignal s3
  have hlen : e.length = D := by
    obtain ⟨k, r, k1, k2⟩ := s6.last
    unfold Effect.length
    rw [k1, List.getLast?_concat]
    show k.relativePosition.getD 0 = D
    rw [k2]
    rfl
  have htimes : e.eventTimes = e.keyframes.map (fun k => e.position + k.relativePosition.getD 0) := by
    unfold Effect.eventTimes
    rw [if_pos hbasis]
    rfl
  refine ⟨⟨hid, hbasis, ⟨⟨by show (0 : Int) ≤ 0; decide, by show (0 : Int) < 2 ^ 16; decide⟩, .inl hbasis, fun s hs => ?_,
    fun v hv => ?_, ?_, fun k hk => ?_⟩, ?_, ?_, fun k hk => ?_, fun t ht => ?_⟩, by omega, ?_⟩
  · have hs : e.semantic = some s := hs
    rw [hsem] at hs
    cases hs
  · have hv : e.baseSignal = some v := hv
    rw [hsig] at hv
    obtain rfl := Option.some.inj hv
    omega
  · show e.keyframes.length < 65536
    omega
  · obtain ⟨x, x1, x2, x3⟩ := s6.between k hk
    refine ⟨⟨x, x1, x2, by show x < 2 ^ 16; omega⟩, fun v hv => ?_, fun ht => (by cases ht), fun ht => (by cases ht)⟩
    rw [(s4 k hk).frequency v hv]
    exact hF
  · rw [htimes, List.pairwise_map]
    have hk : ∀ l : List Keyframe, (∀ k ∈ l, k.relativePosition.isSome) → KfOrdered l →
        l.Pairwise (fun a b => e.position + a.relativePosition.getD 0 ≤ e.position + b.relativePosition.getD 0) := by
      intro l
      induction l with
      | nil => intro _ _; exact .nil
      | cons k l ih =>
        intro h1 h2
        obtain ⟨x, hx⟩ := Option.isSome_iff_exists.mp (h1 k List.mem_cons_self)
        unfold KfOrdered at h2
        rw [List.filterMap_cons_some hx] at h2
        obtain ⟨p1, p2⟩ := List.pairwise_cons.mp h2
        refine List.pairwise_cons.mpr ⟨fun k' hk' => ?_, ih (fun k' hk' => h1 k' (List.mem_cons_of_mem _ hk')) p2⟩
        obtain ⟨y, hy⟩ := Option.isSome_iff_exists.mp (h1 k' (List.mem_cons_of_mem _ hk'))
        have := p1 y (List.mem_filterMap.mpr ⟨k', hk', hy⟩)
        rw [hx, hy]
        show e.position + x ≤ e.position + y
        omega
    refine hk e.keyframes (fun k hk => ?_) s6.ordered
    obtain ⟨x, x1, -⟩ := s6.between k hk
    rw [x1]
    rfl
  · obtain ⟨k, r, k1, -⟩ := s6.head
    rw [k1]
    exact List.cons_ne_nil _ _
  · obtain ⟨x, x1, -⟩ := s6.between k hk
    rw [x1]
    rfl
  · rw [htimes] at ht
    obtain ⟨k, hk, rfl⟩ := List.mem_map.mp ht
    obtain ⟨x, x1, x2, x3⟩ := s6.between k hk
    rw [x1, hlen]
    show e.position ≤ e.position + x ∧ e.position + x ≤ _ ∧ 0 ≤ e.position + x ∧ e.position + x < _
    omega
  · rw [htimes, List.length_map]
    exact s5

/-- **C95 (partial).** An IVS file with one timeline, whose effects are regular, in range, `Brief` and `Roomy`, encoded,
written as a stream and read back, is received with all the effects that it plays, each at its time, and nothing else.
Missing: the files that do not survive (`c95_timelines_negation`, `c95_period_negation`, `c95_long_negation`). -/
theorem c95_ivs_partial (sort : List Ivs.Repeat → List Ivs.Repeat) (f : Ivs.File) (t : Ivs.Timeline) (ts d : Nat)
    (q : Perception) (hts : ts < 2 ^ 32) (hd : 0 < d) (hd2 : d ≤ 1000) (hf : f.timelines = [t])
    (hr : ∀ l ∈ t.launchEvents, ∀ b ∈ f.basisEffects, b.name = l.effect → Ivs.Regular b l ts ∧ Ivs.InRange b l)
    (hq : Ivs.encode sort f ts blank = .ok q) (hb : Ivs.Brief f ts t) (hm : Ivs.Roomy q) :
    ∃ played file r, Ivs.Plays sort f ts t played ∧ writeStream (imported ts q) d = .ok file ∧
      readStream file = .ok (true, some r) ∧ Ivs.Received ts played r := by
  obtain ⟨k1, k2, k3, -⟩ := Ivs.c75_channels sort f ts blank q hq
  obtain ⟨c, c1, c2⟩ := k3 0 t (by rw [hf]; rfl)
  have hlen : q.channels.length = 1 := by rw [k2, hf]; rfl
  have hch : q.channels = [c] := by
    cases hc : q.channels with
    | nil => rw [hc] at hlen; cases hlen
    | cons x xs =>
      rw [hc] at c1 hlen
      obtain rfl : x = c := Option.some.inj c1
      rw [List.eq_nil_of_length_eq_zero (l := xs) (by simpa using hlen)]
  obtain ⟨es, played, e1, e2, e3, e4, e5, e6⟩ := ivs_bands sort f.basisEffects ts t (Ivs.newChannel f t) c hr rfl c2
  have hcm : c ∈ q.channels := by rw [hch]; exact List.mem_singleton_self _
  have m1 := hm.bands c hcm
  have m2 := hm.effects c hcm
  have m3 := hm.early c hcm
  generalize hbs : c.bands = bands at *
  generalize htx : t.name ++ [32, 45, 32] ++ f.lastModified = text at *
  have htext : text.length < 256 := by
    have := hb.title
    rw [← htx]
    simp only [List.length_append, List.length_cons, List.length_nil]
    omega
  have hqe : imported ts q = oneChannel ts text bands := by
    have h1 : c = textChannel text bands := by
      rw [e4]
      unfold Ivs.newChannel textChannel
      rw [htx]
    have h2 : q = { blank with channels := [c] } := by
      have := congrArg (fun x : Perception => { x with channels := [c] }) k1
      rw [← hch] at this ⊢
      exact this
    rw [h2, h1]
    rfl
  have hin : ∀ b ∈ bands, ∀ e ∈ b.effects, e ∈ played := fun b hb e he =>
    e5.mem_iff.mp (List.mem_flatMap.mpr ⟨b, hb, he⟩)
  have hfe : ∀ b ∈ bands, ∀ e ∈ b.effects, FreshEffect BandType.VectorialWave e ∧ 0 ≤ e.length ∧ e.eventTimes.length ≤ 6 :=
    fun b hb' e he => played_fresh hb (e3 e (hin b hb' e he)).1 (m3 b hb' e he)
  have htype : ∀ b ∈ bands, b.bandType = BandType.VectorialWave := fun b hb => congrArg Band.bandType (e6 b hb).1
  have hfr : ∀ b ∈ bands, Fresh b := by
    intro b hb
    obtain ⟨r1, r2, r3⟩ := e6 b hb
    have hh : b.HeaderFits := by
      rw [r1]
      exact ⟨by show BandType.VectorialWave < 8; decide, fun ht => (by cases ht), fun ht => (by cases ht),
        fun v hv => (by cases hv), ⟨by show (0 : Int) ≤ 0; decide, by show (0 : Int) < 2 ^ 16; decide⟩,
        ⟨by show (0 : Int) ≤ 1000; decide, by show (1000 : Int) < 2 ^ 16; decide⟩⟩
    exact fresh_band hh (.inr (.inr (htype b hb))) r2 (fun e he => htype b hb ▸ (hfe b hb e he).1) r3
      (fun e he => (hfe b hb e he).2.1)
  have hnv : ∀ b ∈ bands, b.effects ≠ [] ∧ ∀ e ∈ b.effects, e.keyframes ≠ [] := fun b hb =>
    ⟨(e6 b hb).2.2, fun e he => (hfe b hb e he).1.filled⟩
  have hpr := bands_prune hnv text
  have hsp := bands_spaced ts text hnv
  have hrec : ∀ r : Experience, r.timescale = some ts → List.Forall₂ (fun b b' : Band => b'.bandType = b.bandType ∧
      ∃ m, b'.effects = (withIds m b.effects).map (Effect.receivedIn b.bandType)) bands r.allBands →
      Ivs.Received ts played r := by
    intro r hr hf
    have hv := effects_received hf BandType.VectorialWave
    have hall : bands.filter (fun b => b.bandType = BandType.VectorialWave) = bands :=
      List.filter_eq_self.mpr (fun b hb => by rw [htype b hb]; decide)
    rw [hall] at hv
    refine ⟨hr, ?_, fun b hb => ?_⟩
    · unfold Experience.effectsIn
      rw [hv]
      exact e5.map _
    · obtain ⟨x, hx, hxb, -⟩ := forall₂_right hf b hb
      rw [hxb]
      exact htype x hx
  rw [hqe]
  by_cases hne : bands = []
  · obtain ⟨file, r, f1, f2, f3, f4⟩ := streamed_void ts d _ hts hd (by omega) hsp
      (oneChannel_void ts text bands (by rw [hpr, hne]))
    exact ⟨played, file, r, ⟨es, e1, e2⟩, f1, f2, hrec r f3 (by rw [f4, hne]; exact .nil)⟩
  · have g6 := flatMap_length_le (f := Effect.eventTimes) (l := bands.flatMap (·.effects)) (n := 6) (fun e he => by
      obtain ⟨b, hb', he⟩ := List.mem_flatMap.mp he
      exact (hfe b hb' e he).2.2)
    obtain ⟨file, r, f1, f2, f3, f4⟩ := streamed ts d text htext _ bands hts hd (by omega) hsp
      (oneChannel_prune ts text _ _ hpr hne) hfr (by omega) (fun b hb' => by
        refine lt_of_le_of_lt ?_ m2
        rw [List.length_flatMap]
        exact List.single_le_sum (fun _ _ => Nat.zero_le _) _ (List.mem_map_of_mem (f := fun b : Band => b.effects.length) hb'))
      m1 (fun b hb' t => (sequential_dense (e6 b hb').2.1 (fun e he x hx =>
        ⟨((hfe b hb' e he).1.bounds x hx).1, ((hfe b hb' e he).1.bounds x hx).2.1⟩) (fun e he => (hfe b hb' e he).2.2) t d).trans
        (by omega)) (by omega)
    exact ⟨played, file, r, ⟨es, e1, e2⟩, f1, f2, hrec r f3 f4⟩

/-! ### Concrete files -/

/-- A periodic effect, with an attack and a fade that overlap. -/
def pulse : Ivs.Basis :=
  { name := [82], type := "periodic", waveform := "sine", duration := some 100, magnitude := some 10000, period := some 10
    attackTime := some 80, attackLevel := some 0, fadeTime := some 50, fadeLevel := some 5000 }

/-- It is launched twice, and both are repeated. -/
def twice : Ivs.Timeline :=
  { name := [65], launchEvents := [{ effect := [82], time := some 0 }, { effect := [82], time := some 50 }]
    repeatEvents := [⟨0, 300, 2⟩] }

def repeatedFile : Ivs.File := { lastModified := [50], basisEffects := [pulse], timelines := [twice] }

/-- An effect as it was received: its channel, its position, and the positions and frequencies of its keyframes. -/
structure HeardEffect where
  channel : Int
  position : Int
  keyframes : List (Option Int × Option Int)
deriving DecidableEq

def heardOf (c : Channel) (e : Effect) : HeardEffect :=
  ⟨c.id, e.position, e.keyframes.map (fun k => (k.relativePosition, k.frequencyModulation))⟩

/-- The bands, channel by channel, that are received of a file that is encoded and written as units. -/
def heardIvs (ts d : Nat) (f : Ivs.File) : Option (List (List (List HeardEffect))) :=
  match Ivs.encode id f ts blank with
  | .ok q => match writeUnits (imported ts q) d with
    | .ok units => match readUnits dispatch units units {} with
      | .ok (true, r) => some (r.haptic.perceptions.flatMap (fun p => p.channels.map (fun c => c.bands.map (fun b =>
          b.effects.map (heardOf c)))))
      | _ => none
    | .error _ => none
  | _ => none

/-- It meets the hypotheses of `c95_ivs_partial`. -/
example : (∀ t ∈ repeatedFile.timelines, ∀ l ∈ t.launchEvents, ∀ b ∈ repeatedFile.basisEffects, b.name = l.effect →
      Ivs.Regular b l 1000 ∧ Ivs.InRange b l) ∧
    (∀ t ∈ repeatedFile.timelines, Ivs.Brief repeatedFile 1000 t) ∧
    ∃ q, Ivs.encode id repeatedFile 1000 blank = .ok q ∧ Ivs.Roomy q := by
  have key : ∀ t ∈ repeatedFile.timelines, ∀ l ∈ t.launchEvents, ∀ b ∈ repeatedFile.basisEffects,
      Ivs.toTicks (Ivs.getDuration b l) 1000 = .ok 100 ∧ b.attackTime = some 80 ∧ b.fadeTime = some 50 ∧
      (Ivs.getMagnitude b l = 10000 ∧ b.attackLevel = some 0 ∧ b.fadeLevel = some 5000) ∧
      Ivs.getPeriod b l = 10 ∧ b.waveform = "sine" := by
    decide +kernel
  refine ⟨fun t ht l hl b hb _ => ?_, fun t ht => ⟨?_, fun l hl b hb _ d hd => ?_, fun l hl b hb _ _ => ?_⟩, ?_⟩
  · obtain ⟨h1, h2, h3, ⟨h4, h5, h6⟩, -, h7⟩ := key t ht l hl b hb
    refine ⟨⟨fun d hd => ?_, fun a ha => ?_, fun f hf => ?_⟩, ⟨by rw [h4]; decide, fun a ha => ?_, fun a ha => ?_,
      fun _ => by rw [h7]; decide⟩⟩
    · rw [h1] at hd; injection hd with hd; omega
    · rw [h2] at ha; injection ha with ha; omega
    · rw [h3] at hf; injection hf with hf; omega
    · rw [h5] at ha; obtain rfl := Option.some.inj ha; decide
    · rw [h6] at ha; obtain rfl := Option.some.inj ha; decide
  · rw [List.mem_singleton.mp (show t ∈ [twice] from ht)]; decide
  · rw [(key t ht l hl b hb).1] at hd; injection hd with hd; omega
  · rw [(key t ht l hl b hb).2.2.2.2.1]; decide
  · obtain ⟨q, q1, q2⟩ := of_summary (r := Ivs.encode id repeatedFile 1000 blank) (f := fun q => q.channels.all (fun c =>
        decide (c.bands.length ≤ 256 ∧ (c.bands.flatMap (·.effects)).length < 65536 ∧
          ∀ b ∈ c.bands, ∀ e ∈ b.effects, 0 ≤ e.position ∧ e.position < 2 ^ 24 - 2 ^ 16))) (b := true) (by decide +kernel)
    have := fun c hc => of_decide_eq_true (List.all_eq_true.mp q2 c hc)
    exact ⟨q, q1, ⟨fun c hc => (this c hc).1, fun c hc => (this c hc).2.1, fun c hc => (this c hc).2.2⟩⟩

example : (heardIvs 1000 128 repeatedFile).map (·.map (·.map (·.map (·.position)))) = some [[[0, 300, 600], [50, 350, 650]]] := by
  decide +kernel

/-- **C95, what does not hold.** Both timelines of a file become channels with the identifier 0, and a receiver takes
them for one: the file has two timelines, and the stream has one channel with the effects of both. -/
theorem c95_timelines_negation : ∃ f : Ivs.File, f.timelines.map (fun t => (t.name, t.launchEvents.length)) =
      [([65], 1), ([66], 1)] ∧
    (heardIvs 1000 128 f).map (·.map (·.map (·.map (·.position)))) = some [[[0], [20]]] := by
  refine ⟨{ Ivs.twoTimelines with timelines := [{ name := [65], launchEvents := [{ effect := [82], time := some 0 }] },
    { name := [66], launchEvents := [{ effect := [82], time := some 20 }] }] }, rfl, by decide +kernel⟩

/-- A file with one effect that is launched after a second. -/
def singleFile (b : Ivs.Basis) : Ivs.File :=
  { basisEffects := [{ b with name := [82] }], timelines := [{ launchEvents := [{ effect := [82], time := some 1000 }] }] }

/-- **C95, what does not hold.** A periodic effect without a period has the frequency -1000 Hz (`c72_period_negation`);
it is received as 64536 Hz. -/
theorem c95_period_negation : ∃ b : Ivs.Basis, b.period = none ∧
    heardIvs 1000 128 (singleFile b) = some [[[⟨0, 1000, [(some 0, some 64536), (some 100, some 64536)]⟩]]] :=
  ⟨{ type := "periodic", waveform := "sine", duration := some 100, magnitude := some 10000 }, rfl, by decide +kernel⟩

/-- **C95, what does not hold.** At 1000 ticks a second, an effect of 70 seconds is received as one of 4.464 seconds. -/
theorem c95_long_negation : ∃ b : Ivs.Basis, b.duration = some 70000 ∧
    heardIvs 1000 128 (singleFile b) = some [[[⟨0, 1000, [(some 0, some 170), (some 4464, some 170)]⟩]]] :=
  ⟨{ type := "magsweep", duration := some 70000, magnitude := some 10000 }, rfl, by decide +kernel⟩

end Haptics.Imported
