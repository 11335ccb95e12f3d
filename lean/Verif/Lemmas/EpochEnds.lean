import Verif.Lemmas.EpochBits
import Verif.Lemmas.FpFind
import Verif.Props.EpochBits

/-! Helper lemmas for `Verif/Props/EpochEnds.lean`. -/
namespace Fp
open Spec

theorem startsAt_field (body : Bytes) (pos w : Nat) : StartsAt body pos (toBits w (field body pos w)) := by
  have key : ∀ w i, i < w → bitAt body (pos + i) = (field body pos w).testBit (w - 1 - i) := by
    intro w
    induction w with
    | zero => intro i hi; omega
    | succ w ih =>
      intro i hi
      rw [field]
      by_cases h : i = w
      · subst h
        rw [show i + 1 - 1 - i = 0 by omega, Nat.testBit_zero]
        cases bitAt body (pos + i) <;> simp <;> omega
      · rw [ih i (by omega), show w + 1 - 1 - i = (w - 1 - i) + 1 by omega, Nat.testBit_succ]
        congr 1
        cases bitAt body (pos + w) <;> simp <;> omega
  intro i hi
  rw [toBits_length] at hi
  rw [key w i hi]
  simp [toBits]

theorem startsAt_join {body : Bytes} {pos : Nat} {a b : List Bool} (h1 : StartsAt body pos a) (h2 : StartsAt body (pos + a.length) b) :
    StartsAt body pos (a ++ b) := by
  intro i hi
  by_cases h : i < a.length
  · rw [h1 i h, List.getElem_append_left h]
  · rw [List.getElem_append_right (by omega)]
    rw [← h2 (i - a.length) (by rw [List.length_append] at hi; omega)]
    congr 1
    omega

/-- What is at a position of the stream: the number 1, or an entry. -/
theorem entry_at (body : Bytes) (pos tw bb : Nat) :
    StartsAt body pos (toBits tw 1) ∨ ∃ e : Entry, e.Ok tw bb ∧ StartsAt body pos (e.bits tw bb) := by
  have h := startsAt_field body pos tw
  have hlt := field_lt body pos tw
  by_cases h1 : field body pos tw = 1
  · left; rwa [h1] at h
  right
  by_cases h0 : field body pos tw = 0
  · rw [h0] at h
    refine ⟨⟨true, field body (pos + tw) 32, field body (pos + tw + 32) bb⟩, ⟨field_lt _ _ _, ?_⟩, ?_⟩
    · simp only [if_true]; exact field_lt _ _ _
    · unfold Entry.bits
      simp only [if_true]
      refine startsAt_join (startsAt_join h ?_) ?_
      · rw [toBits_length]; exact startsAt_field _ _ _
      · rw [List.length_append, toBits_length, toBits_length, ← Nat.add_assoc]; exact startsAt_field _ _ _
  · refine ⟨⟨false, field body pos tw, field body (pos + tw) bb⟩, ⟨field_lt _ _ _, ?_⟩, ?_⟩
    · simp only [Bool.false_eq_true, if_false]; omega
    · unfold Entry.bits
      simp only [Bool.false_eq_true, if_false]
      refine startsAt_join h ?_
      rw [toBits_length]; exact startsAt_field _ _ _

/-- A reading loop: ends at the terminator or an error, continues after an entry. -/
def Reads {σ ρ : Type} (tw bb : Nat) (bits : σ → BitState) (step : σ → σ ⊕ ρ) : Prop :=
  ∀ s, (∀ e b, readEntry tw bb (bits s) = .ok (some e, b) → ∃ s', step s = .inl s' ∧ bits s' = b) ∧
    (∀ b, readEntry tw bb (bits s) = .ok (none, b) → ∃ r, step s = .inr r) ∧
    (∀ e, readEntry tw bb (bits s) = .error e → ∃ r, step s = .inr r)

theorem loop_ends {σ ρ : Type} {tw bb : Nat} {bits : σ → BitState} {step : σ → σ ⊕ ρ} (hr : Reads tw bb bits step) (body : Bytes)
    (h1 : 1 ≤ tw) (htw : tw ≤ 32) (hbb : bb ≤ 32) (es : List Entry) (hes : ∀ e ∈ es, e.Ok tw bb) (pos : Nat) (s : σ) (hat : At body pos (bits s))
    (h : StartsAt body pos (es.flatMap (Entry.bits tw bb) ++ toBits tw 1)) : ∃ N r, runLoop step N s = some r := by
  induction es generalizing pos s with
  | nil =>
    rw [List.flatMap_nil, List.nil_append] at h
    obtain ⟨s1, a1, a2⟩ := extractBits_at body pos tw htw (bits s) hat
    rw [field_toBits body pos tw 1 (Nat.one_lt_two_pow (by omega)) h] at a1
    obtain ⟨s2, b1, b2⟩ := extractBits_at body (pos + tw) bb hbb s1 a2
    have : ∃ r, step s = .inr r := by
      by_cases hz : field body (pos + tw) bb = 0
      · refine (hr s).2.1 s2 ?_
        unfold readEntry
        simp only [a1, bind, Except.bind, if_true, b1, hz, ne_eq, not_true_eq_false, if_false, pure, Except.pure]
      · refine (hr s).2.2 .valueError ?_
        unfold readEntry
        simp only [a1, bind, Except.bind, if_true, b1, hz, ne_eq, not_false_eq_true]
    obtain ⟨r, hr'⟩ := this
    exact ⟨1, r, runLoop_stop step s r hr' 0⟩
  | cons e es ih =>
    rw [List.flatMap_cons, List.append_assoc] at h
    obtain ⟨h2, h3⟩ := startsAt_append _ _ _ _ h
    obtain ⟨b, hb, hat'⟩ := readEntry_some body pos tw bb htw hbb e (hes e (by simp)) h2 (bits s) hat
    obtain ⟨s', hs', hbs⟩ := (hr s).1 _ b hb
    obtain ⟨N, r, hN⟩ := ih (fun e he => hes e (by simp [he])) _ s' (by rw [hbs]; exact hat') h3
    exact ⟨N + 1, r, by rw [runLoop_step step s s' hs' N, hN]⟩

theorem loop_runs {σ ρ : Type} {tw bb : Nat} {bits : σ → BitState} {step : σ → σ ⊕ ρ} (hr : Reads tw bb bits step) (body : Bytes)
    (htw : tw ≤ 32) (hbb : bb ≤ 32) (N pos : Nat) (s : σ) (hat : At body pos (bits s))
    (h : ¬ ∃ es : List Entry, (∀ e ∈ es, e.Ok tw bb) ∧ StartsAt body pos (es.flatMap (Entry.bits tw bb) ++ toBits tw 1)) :
    runLoop step N s = none := by
  induction N generalizing pos s with
  | zero => rfl
  | succ N ih =>
    rcases entry_at body pos tw bb with h1 | ⟨e, he, hs⟩
    · exact absurd ⟨[], by simp, by simpa using h1⟩ h
    · obtain ⟨b, hb, hat'⟩ := readEntry_some body pos tw bb htw hbb e he hs (bits s) hat
      obtain ⟨s', hs', hbs⟩ := (hr s).1 _ b hb
      rw [runLoop_step step s s' hs' N]
      refine ih _ s' (by rw [hbs]; exact hat') ?_
      rintro ⟨es, hes, hst⟩
      refine h ⟨e :: es, ?_, ?_⟩
      · intro x hx
        rcases List.mem_cons.mp hx with rfl | hx
        · exact he
        · exact hes x hx
      · rw [List.flatMap_cons, List.append_assoc]
        exact startsAt_join hs hst

theorem starts_iff (body : Bytes) (bits : List Bool) : Starts body bits ↔ StartsAt body 0 bits :=
  ⟨startsAt_zero body bits, fun h i hi => by have := h i hi; rwa [Nat.zero_add] at this⟩

theorem t2_reads (tw bb : Nat) : Reads tw bb T2State.bits (t2Step (tw : Int) (bb : Int)) := by
  intro s
  refine ⟨?_, ?_, ?_⟩
  · rintro ⟨t, base⟩ b h
    unfold t2Step
    rw [h]
    exact ⟨_, rfl, rfl⟩
  · intro b h
    unfold t2Step
    rw [h]
    exact ⟨_, rfl⟩
  · intro e h
    unfold t2Step
    rw [h]
    exact ⟨_, rfl⟩

theorem t4_reads (tw bb : Nat) : Reads tw bb T4State.bits (t4Step (tw : Int) (bb : Int)) := by
  intro s
  refine ⟨?_, ?_, ?_⟩
  · rintro ⟨t, base⟩ b h
    unfold t4Step
    rw [h]
    exact ⟨_, rfl, rfl⟩
  · intro b h
    unfold t4Step
    rw [h]
    exact ⟨_, rfl⟩
  · intro e h
    unfold t4Step
    rw [h]
    exact ⟨_, rfl⟩

end Fp
