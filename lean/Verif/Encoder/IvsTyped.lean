import Verif.Encoder.PropsIvsFile
import Verif.Encoder.AhapTyped

/-! The values in the effects that the IVS encoder makes. -/

namespace Haptics.Ivs
open Haptics Haptics.Json
open Haptics.Ahap (UnitFloat unitFloat_fl32)

/-- Levels within the range of the format, and one of the five waveforms. -/
structure InRange (b : Basis) (l : Launch) : Prop where
  magnitude : -10000 ≤ getMagnitude b l ∧ getMagnitude b l ≤ 10000
  attack : ∀ a ∈ b.attackLevel, -10000 ≤ a ∧ a ≤ 10000
  fade : ∀ a ∈ b.fadeLevel, -10000 ≤ a ∧ a ≤ 10000
  waveform : b.type = "periodic" → b.waveform ∈ ["sine", "square", "triangle", "sawtooth-up", "sawtooth-down"]

theorem amplitudeOf_unit {v : Int} (h : -10000 ≤ v ∧ v ≤ 10000) : UnitFloat (amplitudeOf v) := by
  unfold amplitudeOf
  have h0 : fl32 (v : ℚ) = v := fl32_int v (by rw [abs_lt]; constructor <;> omega)
  have h1 : fl32 (1 / 10000) = 13743895 / 137438953472 := by decide +kernel
  rw [h0, h1]
  refine unitFloat_fl32 ?_
  have a1 : (-10000 : ℚ) ≤ v := by exact_mod_cast h.1
  have a2 : (v : ℚ) ≤ 10000 := by exact_mod_cast h.2
  rw [abs_le]
  constructor <;> nlinarith

theorem getD_range {o : Option Int} (h : ∀ a ∈ o, -10000 ≤ a ∧ a ≤ 10000) : -10000 ≤ o.getD 0 ∧ o.getD 0 ≤ 10000 := by
  cases o with
  | none => simp
  | some a => exact h a rfl

theorem interpolated_unit {a b : Int × ℚ} {x : Int} {y : ℚ} (h1 : a.1 < x) (h2 : x ≤ b.1) (h3 : -2 ^ 31 ≤ a.1)
    (h4 : b.1 < 2 ^ 31) (ha : UnitFloat a.2) (hb : UnitFloat b.2) (h : interpolated a b x = .ok y) : UnitFloat y := by
  obtain ⟨z, z1, z2, z3⟩ := Ahap.linear64_bounds h1 h2 h3 h4 (abs_le.mp ha.2) (abs_le.mp hb.2)
  unfold interpolated at h
  rw [z1] at h
  obtain rfl := Except.ok.inj h
  exact unitFloat_fl32 (abs_le.mpr ⟨z2, z3⟩)

/-- The values of a keyframe. -/
structure Sound (freq : Int) (k : Keyframe) : Prop where
  amplitude : ∀ a ∈ k.amplitudeModulation, UnitFloat a
  frequency : ∀ f ∈ k.frequencyModulation, f = freq

/-- The same effect but for its keyframes, which are sound, and at most `n`. -/
structure SoundEffect (freq : Int) (n : Nat) (e r : Effect) : Prop where
  same : { r with keyframes := [] } = { e with keyframes := [] }
  keyframes : ∀ k ∈ r.keyframes, Sound freq k
  count : r.keyframes.length ≤ n

theorem addAmplitude_sound {freq : Int} {n : Nat} {e r : Effect} (h : SoundEffect freq n e r) {a : ℚ} (ha : UnitFloat a)
    (p : Int) (ov : Bool) : SoundEffect freq (n + 1) e (r.addAmplitudeAt (some a) p ov) := by
  have key : ∀ l : List Keyframe, (∀ k ∈ l, Sound freq k) → (∀ k ∈ addAmplitudeKf (some a) p ov l, Sound freq k) ∧
      (addAmplitudeKf (some a) p ov l).length ≤ l.length + 1 := by
    intro l hl
    have hnew : Sound freq ⟨some p, some a, none⟩ := ⟨fun x hx => by cases hx; exact ha, fun f hf => by cases hf⟩
    obtain ⟨pre, post, rfl, -, ⟨k, rest, rfl, -, e1⟩ | ⟨-, e1⟩⟩ := addAmplitudeKf_shape (some a) p ov l
    · rw [e1]
      have hk := hl k (by simp)
      split
      · refine ⟨fun x hx => ?_, by simp⟩
        rcases List.mem_append.mp hx with hx | hx
        · exact hl x (by simp [hx])
        · rcases List.mem_cons.mp hx with rfl | hx
          · exact ⟨fun y hy => by cases hy; exact ha, hk.frequency⟩
          · exact hl x (by simp [hx])
      · refine ⟨fun x hx => ?_, by simp; omega⟩
        rcases List.mem_append.mp hx with hx | hx
        · exact hl x (by simp [hx])
        · rcases List.mem_cons.mp hx with rfl | hx
          · exact hk
          · rcases List.mem_cons.mp hx with rfl | hx
            · exact hnew
            · exact hl x (by simp [hx])
    · rw [e1]
      refine ⟨fun x hx => ?_, by simp; omega⟩
      rcases List.mem_append.mp hx with hx | hx
      · exact hl x (by simp [hx])
      · rcases List.mem_cons.mp hx with rfl | hx
        · exact hnew
        · exact hl x (by simp [hx])
  obtain ⟨k1, k2⟩ := key r.keyframes h.keyframes
  exact ⟨h.same, k1, k2.trans (by have := h.count; omega)⟩

theorem SoundEffect.mono {freq : Int} {n m : Nat} {e r : Effect} (h : SoundEffect freq n e r) (hm : n ≤ m) :
    SoundEffect freq m e r := ⟨h.same, h.keyframes, h.count.trans hm⟩

theorem toTicks_range {ms : Int} {ts : Nat} {r : Int} (h : toTicks ms ts = .ok r) : -2 ^ 31 ≤ r ∧ r < 2 ^ 31 := by
  unfold toTicks castInt at h
  split at h
  · obtain rfl := Except.ok.inj h; assumption
  · cases h

theorem fade_sound {b : Basis} {ts : Nat} {m : ℚ} {d at' : Int} {freq : Int} {n : Nat} {o e r : Effect}
    (hl : ∀ a ∈ b.fadeLevel, -10000 ≤ a ∧ a ≤ 10000) (hm : UnitFloat m) (hat : max at' 0 < d) (hd : d < 2 ^ 31)
    (hf : ∀ f, b.fadeTime.getD (-1) ≠ -1 → toTicks (b.fadeTime.getD (-1)) ts = .ok f → 0 ≤ f)
    (he : SoundEffect freq n o e) (h : fade b ts m d at' e = .ok r) : SoundEffect freq (n + 2) o r := by
  by_cases hn : b.fadeTime.getD (-1) = -1
  · rw [fade_none _ _ _ _ _ _ hn] at h
    obtain rfl := Except.ok.inj h
    exact he.mono (by omega)
  · unfold fade at h
    dsimp only at h
    rw [if_neg hn] at h
    have hfa := amplitudeOf_unit (getD_range hl)
    cases ht : toTicks (b.fadeTime.getD (-1)) ts with
    | error x => rw [ht] at h; cases h
    | ok f =>
      have hf0 := hf f hn ht
      have hf1 := toTicks_range ht
      rw [ht] at h
      change Except.bind (Except.ok f) _ = _ at h
      simp only [Except.bind] at h
      split at h
      · rename_i hlt
        cases hi : interpolated (d - f, m) (d, amplitudeOf (b.fadeLevel.getD 0)) (max at' 0) with
        | error x => rw [hi] at h; cases h
        | ok y =>
          rw [hi] at h
          obtain rfl := Except.ok.inj h
          have hy := interpolated_unit (a := (d - f, m)) (b := (d, amplitudeOf (b.fadeLevel.getD 0))) hlt hat.le
            (by show -2 ^ 31 ≤ d - f; omega) hd hm hfa hi
          exact addAmplitude_sound (addAmplitude_sound he hy _ _) hfa _ _
      · split at h
        · obtain rfl := Except.ok.inj h
          exact addAmplitude_sound (addAmplitude_sound he hm _ _) hfa _ _
        · obtain rfl := Except.ok.inj h
          exact (addAmplitude_sound he hfa _ _).mono (by omega)

theorem signal_range {b : Basis} {l : Launch} {ts : Nat} {e : Effect} (hr : InRange b l)
    (h : convertToEffect b l ts = .ok (some e)) :
    ∃ signal freq d, toTicks (getDuration b l) ts = .ok d ∧
      envelope b ts (amplitudeOf (getMagnitude b l)) d (plain b l signal freq d) = .ok e ∧ signal < 5 ∧
      ((b.type = "periodic" ∧ frequency (getPeriod b l) = .ok freq) ∨ freq = 170) := by
  unfold convertToEffect at h
  dsimp only at h
  split at h
  · cases h
  · cases h
  · rename_i signal freq hsf
    cases hd : toTicks (getDuration b l) ts with
    | error x => rw [hd] at h; cases h
    | ok d =>
      rw [hd] at h
      refine ⟨signal, freq, d, rfl, ?_, ?_⟩
      · change (envelope b ts _ d (plain b l signal freq d)).bind _ = _ at h
        cases he : envelope b ts (amplitudeOf (getMagnitude b l)) d (plain b l signal freq d) with
        | error x => rw [he] at h; cases h
        | ok e' =>
          rw [he] at h
          injection h with h
          injection h with h
          rw [h]
      · split at hsf
        · rename_i ht
          cases hf : frequency (getPeriod b l) with
          | error x => rw [hf] at hsf; cases hsf
          | ok f =>
            rw [hf] at hsf
            obtain ⟨h1, rfl⟩ := Prod.mk.inj (Option.some.inj (Except.ok.inj hsf))
            refine ⟨?_, .inl ⟨ht, rfl⟩⟩
            rw [← h1]
            have hw := hr.waveform ht
            unfold getWaveform
            simp only [List.mem_cons, List.not_mem_nil, or_false] at hw
            rcases hw with hw | hw | hw | hw | hw <;> rw [hw] <;> simp
        · split at hsf
          · obtain ⟨h1, rfl⟩ := Prod.mk.inj (Option.some.inj (Except.ok.inj hsf))
            exact ⟨by rw [← h1]; decide, .inr rfl⟩
          · cases (Except.ok.inj hsf)

/-- What a launch event makes. -/
structure Made (b : Basis) (l : Launch) (ts : Nat) (e : Effect) : Prop where
  shape : ∃ signal freq d, toTicks (getDuration b l) ts = .ok d ∧ 0 < d ∧ signal < 5 ∧
    ((b.type = "periodic" ∧ frequency (getPeriod b l) = .ok freq) ∨ freq = 170) ∧
    SoundEffect freq 6 (plain b l signal freq d) e ∧ Within d e.keyframes

theorem convert_made {b : Basis} {l : Launch} {ts : Nat} {e : Effect} (hr : Regular b l ts) (hi : InRange b l)
    (h : convertToEffect b l ts = .ok (some e)) : Made b l ts e := by
  obtain ⟨signal, freq, d, hd, he, hs, hf⟩ := signal_range hi h
  have hd0 := hr.duration d hd
  have hd1 := toTicks_range hd
  have ha0 : ∀ a, b.attackTime.getD (-1) ≠ -1 → toTicks (b.attackTime.getD (-1)) ts = .ok a → 0 ≤ a := fun a hn ha =>
    toTicks_nonneg _ _ _ (by
      cases hc : b.attackTime with
      | none => rw [hc] at hn; exact absurd rfl hn
      | some x => rw [hc] at hn; have := hr.attack x hc; simp at hn ⊢; omega) ha
  have hf0 : ∀ f, b.fadeTime.getD (-1) ≠ -1 → toTicks (b.fadeTime.getD (-1)) ts = .ok f → 0 ≤ f := fun f hn hf =>
    toTicks_nonneg _ _ _ (by
      cases hc : b.fadeTime with
      | none => rw [hc] at hn; exact absurd rfl hn
      | some x => rw [hc] at hn; have := hr.fade x hc; simp at hn ⊢; omega) hf
  obtain ⟨-, hw⟩ := c73_keyframes b l ts e d h hd hd0 ha0 hf0
  refine ⟨signal, freq, d, hd, hd0, hs, hf, ?_, hw⟩
  have hm := amplitudeOf_unit hi.magnitude
  have hat := amplitudeOf_unit (getD_range hi.attack)
  have h0 : SoundEffect freq 2 (plain b l signal freq d) (plain b l signal freq d) := by
    refine ⟨rfl, fun k hk => ?_, le_refl _⟩
    simp only [plain, List.mem_cons, List.not_mem_nil, or_false] at hk
    rcases hk with rfl | rfl <;> exact ⟨fun x hx => by cases hx; exact hm, fun x hx => by cases hx; rfl⟩
  by_cases hn : b.attackTime.getD (-1) = -1
  · rw [envelope_none _ _ _ _ _ hn] at he
    exact (fade_sound hi.fade hm (by omega) hd1.2 hf0 h0 he).mono (by omega)
  · cases ht : toTicks (b.attackTime.getD (-1)) ts with
    | error x =>
      unfold envelope at he
      dsimp only at he
      rw [if_neg hn, ht] at he
      cases he
    | ok a =>
      have ha0 := ha0 a hn ht
      rcases lt_or_ge a d with hlt | hge
      · rw [envelope_some _ _ _ _ _ _ hn ht hlt] at he
        exact fade_sound hi.fade hm (by omega) hd1.2 hf0 (addAmplitude_sound (addAmplitude_sound h0 hat _ _) hm _ _) he
      · unfold envelope at he
        dsimp only at he
        rw [if_neg hn, ht] at he
        change Except.bind (Except.ok a) _ = _ at he
        simp only [Except.bind] at he
        rw [if_pos hge] at he
        cases hi' : interpolated (0, amplitudeOf (b.attackLevel.getD 0)) (a, amplitudeOf (getMagnitude b l)) d with
        | error x => rw [hi'] at he; cases he
        | ok y =>
          rw [hi'] at he
          obtain rfl := Except.ok.inj he
          have hy := interpolated_unit (a := (0, amplitudeOf (b.attackLevel.getD 0)))
            (b := (a, amplitudeOf (getMagnitude b l))) hd0 hge (by show -2 ^ 31 ≤ (0 : Int); decide) (toTicks_range ht).2 hat hm hi'
          exact (addAmplitude_sound (addAmplitude_sound h0 hat _ _) hy _ _).mono (by omega)

/-- All effects that are launched. -/
theorem launched_made {basis : List Basis} {ts : Nat} (ls : List Launch) (es : List Effect)
    (hr : ∀ l ∈ ls, ∀ b ∈ basis, b.name = l.effect → Regular b l ts ∧ InRange b l)
    (h : launched basis ts ls = .ok es) : ∀ e ∈ es, ∃ l ∈ ls, ∃ b ∈ basis, b.name = l.effect ∧ Made b l ts e := by
  induction ls generalizing es with
  | nil => obtain rfl := Except.ok.inj h; intro e he; cases he
  | cons l ls ih =>
    have ih' : ∀ es', launched basis ts ls = .ok es' → ∀ e ∈ es', ∃ l' ∈ l :: ls, ∃ b ∈ basis, b.name = l'.effect ∧
        Made b l' ts e := by
      intro es' h' e he
      obtain ⟨l', h1, h2⟩ := ih es' (fun l' hl' => hr l' (List.mem_cons_of_mem _ hl')) h' e he
      exact ⟨l', List.mem_cons_of_mem _ h1, h2⟩
    rw [launched] at h
    split at h
    · exact ih' es h
    · rename_i b hb
      split at h
      · cases h
      · exact ih' es h
      · rename_i e he
        cases hl : launched basis ts ls with
        | error x => rw [hl] at h; cases h
        | ok l' =>
          rw [hl] at h
          obtain rfl := Except.ok.inj h
          intro x hx
          rcases List.mem_cons.mp hx with rfl | hx
          · have hbm := List.mem_of_find?_eq_some hb
            have hbn : b.name = l.effect := by have := List.find?_some hb; simpa using this
            obtain ⟨r1, r2⟩ := hr l List.mem_cons_self b hbm hbn
            exact ⟨l, List.mem_cons_self, b, hbm, hbn, convert_made r1 r2 he⟩
          · exact ih' l' hl x hx

end Haptics.Ivs
