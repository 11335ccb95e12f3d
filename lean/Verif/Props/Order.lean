import Verif.Spec.Order
import Verif.Props.FpLocal

/-! # C119: the order of events -/
namespace Fp
open Spec

theorem bincount_perm {l l' : List Nat} (h : l.Perm l') (n : Nat) : bincount l n = bincount l' n := by
  unfold bincount
  have h1 : l.foldl (fun m v => max m (v + 1)) n = l'.foldl (fun m v => max m (v + 1)) n := by
    refine h.foldl_eq' (fun x _ y _ z => ?_) n
    omega
  rw [h1]
  refine List.map_congr_left fun k _ => ?_
  exact h.countP_eq _

theorem bins_perm (rnd : ℚ → ℚ) {l l' : List ℚ} (h : l.Perm l') (n : Nat) (res : ℚ) :
    generateBinsR rnd l n res = generateBinsR rnd l' n res := by
  unfold generateBinsR
  rw [bincount_perm (h.map _)]
  by_cases hl : l = []
  · subst hl
    rw [List.nil_perm] at h
    rw [h]
  · rw [if_neg hl, if_neg]
    rintro rfl
    exact hl (List.perm_nil.mp h)

theorem slice_perm (rnd : ℚ → ℚ) {l l' : List ℚ} (h : l.Perm l') (start dur : ℚ) :
    (∃ e, sliceTimestampsR rnd l (some start) (some dur) = .error e ∧ sliceTimestampsR rnd l' (some start) (some dur) = .error e) ∨
      ∃ r r', sliceTimestampsR rnd l (some start) (some dur) = .ok r ∧ sliceTimestampsR rnd l' (some start) (some dur) = .ok r' ∧ r.Perm r' := by
  have hf := (h.map fun t => rnd (t - start)).filter fun t => decide (0 ≤ t)
  unfold sliceTimestampsR
  simp only [pure_bind]
  by_cases h0 : ((l.map fun t => rnd (t - start)).filter fun t => decide (0 ≤ t)) = []
  · rw [h0, List.nil_perm] at hf
    rw [if_pos h0, if_pos hf]
    exact .inl ⟨_, rfl, rfl⟩
  · rw [if_neg h0, if_neg fun h1 => h0 (by rw [h1] at hf; exact List.perm_nil.mp hf)]
    exact .inr ⟨_, _, rfl, rfl, hf.filter _⟩

theorem correlate_perm (P : TFParams) {a' b b' : List ℚ} (ha : P.ats.Perm a') (hb : b.Perm b') (res start dur : ℚ) :
    tfCorrelate { P with ats := a' } b' res start dur = tfCorrelate P b res start dur := by
  unfold tfCorrelate
  simp only
  rcases slice_perm P.rndA ha start dur with ⟨e, h1, h2⟩ | ⟨r, r', h1, h2, hr⟩
  · rw [h1, h2]; rfl
  rw [h1, h2]
  rcases slice_perm P.rndA hb start dur with ⟨e, h3, h4⟩ | ⟨q, q', h3, h4, hq⟩
  · rw [h3, h4]; rfl
  rw [h3, h4]
  simp only [bind, Except.bind]
  rw [bins_perm P.rndA hr, bins_perm P.rndA hq]

/-- States of two searches that differ in the order of the events only. -/
structure SameSearch (s s' : TFState) : Prop where
  bts : s.bts.Perm s'.bts
  res : s'.res = s.res
  dt : s'.dt = s.dt
  f : s'.f = s.f
  iter : s'.iter = s.iter
  phase : s'.phase = s.phase

theorem step_perm (P : TFParams) {a' : List ℚ} (ha : P.ats.Perm a') (s s' : TFState) (h : SameSearch s s') :
    (∃ t t', tfStep P s = .inl t ∧ tfStep { P with ats := a' } s' = .inl t' ∧ SameSearch t t') ∨
      ∃ r r', tfStep P s = .inr r ∧ tfStep { P with ats := a' } s' = .inr r' ∧ plainResult r = plainResult r' := by
  obtain ⟨b, res, dt, f, iter, phase, tr⟩ := s
  obtain ⟨b', res', dt', f', iter', phase', tr'⟩ := s'
  obtain ⟨hb, h1, h2, h3, h4, h5⟩ := h
  dsimp only at hb h1 h2 h3 h4 h5
  subst h1 h2 h3 h4 h5
  have hc := fun start dur => correlate_perm P ha hb res' start dur
  unfold tfStep
  cases phase' with
  | begin =>
    simp only [tfBegin]
    have hd : tfDuration { P with ats := a' } res' = tfDuration P res' := rfl
    rw [hd, hc]
    cases tfCorrelate P b res' 0 (tfDuration P res') with
    | error e => exact .inr ⟨_, _, rfl, rfl, rfl⟩
    | ok r =>
      simp only [bind, Except.bind]
      cases P.signif r.1 res' with
      | error e => exact .inr ⟨_, _, rfl, rfl, rfl⟩
      | ok sig => exact .inl ⟨_, _, rfl, rfl, hb, rfl, rfl, rfl, rfl, rfl⟩
  | search ys dt1 sig dur =>
    simp only [tfSearch]
    split_ifs
    · exact .inr ⟨_, _, rfl, rfl, rfl⟩
    · exact .inl ⟨_, _, rfl, rfl, hb, rfl, rfl, rfl, rfl, rfl⟩
    · simp only [bind, Except.bind]
      cases mergePairs ys with
      | error e => exact .inr ⟨_, _, rfl, rfl, rfl⟩
      | ok ys' => exact .inr ⟨_, _, rfl, rfl, rfl⟩
    · simp only [bind, Except.bind]
      cases mergePairs ys with
      | error e => exact .inr ⟨_, _, rfl, rfl, rfl⟩
      | ok ys' =>
        simp only
        cases getTimingDelayFft ys' ((List.range ys'.length).map fun k : Nat => P.rnd ((k : ℚ) * P.rnd (res' * 2))) with
        | error e => exact .inr ⟨_, _, rfl, rfl, rfl⟩
        | ok d =>
          simp only
          cases P.signif ys' (P.rnd (res' * 2)) with
          | error e => exact .inr ⟨_, _, rfl, rfl, rfl⟩
          | ok sig => exact .inl ⟨_, _, rfl, rfl, hb, rfl, rfl, rfl, rfl, rfl⟩
  | late dt1 dur =>
    simp only [tfLate]
    rw [hc]
    by_cases hd : ntpMaxDelay < |dt1|
    · rw [if_pos hd, if_pos hd]
      exact .inr ⟨_, _, rfl, rfl, rfl⟩
    rw [if_neg hd, if_neg hd]
    cases tfCorrelate P b res' P.sep dur with
    | error e => exact .inr ⟨_, _, rfl, rfl, rfl⟩
    | ok r =>
      simp only
      split_ifs
      · exact .inr ⟨_, _, rfl, rfl, rfl⟩
      · exact .inr ⟨_, _, rfl, rfl, rfl⟩
      · exact .inr ⟨_, _, rfl, rfl, rfl⟩
      · exact .inl ⟨_, _, rfl, rfl, hb.map _, rfl, rfl, rfl, rfl, rfl⟩

/-- **C119** (`time_freq`): exchanging events in either array, without changing which times are the last ones, changes nothing. -/
theorem C119_time_freq (P : TFParams) (a' b b' : List ℚ) (ha : P.ats.Perm a') (hb : b.Perm b') (res : ℚ) (fuel : Nat) :
    (timeFreq { P with ats := a' } fuel b' res).map plainResult = (timeFreq P fuel b res).map plainResult :=
  runLoop_rel (tfStep P) (tfStep { P with ats := a' }) SameSearch plainResult (fun s s' h => step_perm P ha s s' h) fuel _ _
    ⟨hb, rfl, rfl, rfl, rfl, rfl⟩

theorem call_perm (env : NumEnv) (args : FpMainArgs) {a a' b b' : List ℚ} (ha : a.Perm a') (hla : a.getLast? = a'.getLast?)
    (hb : b.Perm b') (hlb : b.getLast? = b'.getLast?) (fuel : Nat) : args.call env fuel a' b' = args.call env fuel a b := by
  unfold FpMainArgs.call
  rw [show tfEndTime a' b' = tfEndTime a b by unfold tfEndTime; rw [hla, hlb]]
  cases tfEndTime a b with
  | error e => rfl
  | ok E => exact C119_time_freq (args.params env a E) a' b b' ha hb args.initialRes fuel

theorem start_last (rnd : ℚ → ℚ) (hr : ∀ x, 0 ≤ rnd x ↔ 0 ≤ x) (s : ℚ) {l l' : List ℚ} (h : SameEnds l l') (hz : LastLatest id l) :
    ((l.map fun t => rnd (t - s)).filter fun t => decide (0 ≤ t)).getLast? =
      ((l'.map fun t => rnd (t - s)).filter fun t => decide (0 ≤ t)).getLast? := by
  rcases List.eq_nil_or_concat l with rfl | ⟨m, z, rfl⟩
  · rw [(List.nil_perm.mp h.perm)]
  obtain ⟨m', z', rfl⟩ : ∃ m' z', l' = m' ++ [z'] := by
    rcases List.eq_nil_or_concat l' with rfl | ⟨m', z', rfl⟩
    · simpa using h.perm
    · exact ⟨m', z', by simp⟩
  have hzz : z = z' := by simpa using h.last
  subst hzz
  by_cases h0 : 0 ≤ rnd (z - s)
  · simp [List.filter_append, h0]
  · have hall : ∀ x ∈ m.concat z, ¬ 0 ≤ rnd (x - s) := by
      intro x hx hc
      have hxz : x ≤ z := hz z (by simp) x hx
      rw [hr] at hc h0
      exact h0 (by linarith)
    have e1 : ∀ k : List ℚ, (∀ x ∈ k, ¬ 0 ≤ rnd (x - s)) → ((k.map fun t => rnd (t - s)).filter fun t => decide (0 ≤ t)) = [] := by
      intro k hk
      rw [List.filter_eq_nil_iff]
      intro t ht
      obtain ⟨x, hx, rfl⟩ := List.mem_map.mp ht
      simpa using hk x hx
    rw [e1 _ hall, e1 _ fun x hx => hall x (h.perm.mem_iff.mpr hx)]

theorem normalize_perm (rnd rndA : ℚ → ℚ) (hr : ∀ x, 0 ≤ rndA x ↔ 0 ≤ x) (skip : ℚ) {a a' b b' : List ℚ} (ha : SameEnds a a')
    (hb : SameEnds b b') (hla : LastLatest id a) (hlb : LastLatest id b) :
    (∃ e, normalizeTimestampsR rnd rndA [a, b] skip true = .error e ∧ normalizeTimestampsR rnd rndA [a', b'] skip true = .error e) ∨
      ∃ A B A' B', normalizeTimestampsR rnd rndA [a, b] skip true = .ok [A, B] ∧
        normalizeTimestampsR rnd rndA [a', b'] skip true = .ok [A', B'] ∧
        A.Perm A' ∧ A.getLast? = A'.getLast? ∧ B.Perm B' ∧ B.getLast? = B'.getLast? := by
  have one : ∀ x x' : List ℚ, SameEnds x x' → (x = [] ∧ x' = []) ∨ ∃ t m m', x = t :: m ∧ x' = t :: m' := by
    intro x x' h
    match x, x', h with
    | [], [], _ => exact .inl ⟨rfl, rfl⟩
    | [], _ :: _, h => simpa using h.first
    | _ :: _, [], h => simpa using h.first
    | t :: m, t' :: m', h =>
      have : t = t' := by simpa using h.first
      subst this
      exact .inr ⟨t, m, m', rfl, rfl⟩
  rcases one a a' ha with ⟨rfl, rfl⟩ | ⟨t, m, m', rfl, rfl⟩
  · exact .inl ⟨_, rfl, rfl⟩
  rcases one b b' hb with ⟨rfl, rfl⟩ | ⟨u, n, n', rfl, rfl⟩
  · exact .inl ⟨_, rfl, rfl⟩
  have run : ∀ m n, normalizeTimestampsR rnd rndA [t :: m, u :: n] skip true =
      .ok [((t :: m).map fun x => rndA (x - rndA (max t u + rnd (skip * 10 ^ 9)))).filter fun t => decide (0 ≤ t),
        ((u :: n).map fun x => rndA (x - rndA (max t u + rnd (skip * 10 ^ 9)))).filter fun t => decide (0 ≤ t)] := by
    intro m n
    rfl
  rw [run, run]
  exact .inr ⟨_, _, _, _, rfl, rfl, (ha.perm.map _).filter _, start_last rndA hr _ ha hla, (hb.perm.map _).filter _,
    start_last rndA hr _ hb hlb⟩

theorem sameEnds_map {α β : Type} (g : α → β) {l l' : List α} (h : SameEnds l l') : SameEnds (l.map g) (l'.map g) :=
  ⟨h.perm.map g, by rw [List.head?_map, List.head?_map, h.first], by rw [List.getLast?_map, List.getLast?_map, h.last]⟩

/-- **C119**: fpfind prints the same, or fails in the same way, for files with the same events in another order, if the first events are
the same ones and the last events are the same ones and the latest ones. -/
theorem C119_fpfind (env : NumEnv) (hr : ∀ x, 0 ≤ env.rndA x ↔ 0 ≤ x) (fuel : Nat) (args : FpMainArgs) (l : Bool)
    (a a' b b' : List (Nat × Nat)) (hva : ∀ x ∈ a, Valid x) (hvb : ∀ x ∈ b, Valid x) (ha : SameEnds a a') (hb : SameEnds b b')
    (hla : LastLatest (fun e : Nat × Nat => (e.1 : ℚ)) a) (hlb : LastLatest (fun e : Nat × Nat => (e.1 : ℚ)) b) :
    fpMain env fuel (rawArgs args l a' b') = fpMain env fuel (rawArgs args l a b) := by
  have ns : ∀ x : List (Nat × Nat), LastLatest (fun e : Nat × Nat => (e.1 : ℚ)) x → LastLatest id (nsTimes x) := by
    intro x h z hz y hy
    unfold nsTimes at hz hy
    rw [List.getLast?_map, Option.map_eq_some_iff] at hz
    obtain ⟨w, hw, rfl⟩ := hz
    obtain ⟨v, hv, rfl⟩ := List.mem_map.mp hy
    have := h w hw v hv
    simp only [id]
    linarith
  have l1 := load_raw env.rnd fuel args l a b hva hvb
  have l2 := load_raw env.rnd fuel args l a' b' (fun x hx => hva x (ha.perm.mem_iff.mpr hx)) (fun x hx => hvb x (hb.perm.mem_iff.mpr hx))
  unfold fpMain mainInput
  rw [l1, l2]
  simp only
  rcases normalize_perm env.rnd env.rndA hr args.skipDuration (a := nsTimes a) (a' := nsTimes a') (b := nsTimes b) (b' := nsTimes b')
    (sameEnds_map _ ha) (sameEnds_map _ hb) (ns a hla) (ns b hlb) with ⟨e, h1, h2⟩ | ⟨A, B, A', B', h1, h2, pA, lA, pB, lB⟩
  · rw [h1, h2]; rfl
  rw [h1, h2]
  simp only [Except.map, List.getD_cons_zero, List.getD_cons_succ]
  have eA : A' = [] ↔ A = [] := by
    constructor
    · rintro rfl; exact List.perm_nil.mp pA
    · rintro rfl; exact List.nil_perm.mp pA
  have eB : B' = [] ↔ B = [] := by
    constructor
    · rintro rfl; exact List.perm_nil.mp pB
    · rintro rfl; exact List.nil_perm.mp pB
  have hscan : fpfindScanF env.rnd env.rndA ((rawArgs args l a' b').call env fuel A') B' (rawArgs args l a' b').precompFullscan
        ((rawArgs args l a' b').precompensations env) =
      fpfindScanF env.rnd env.rndA ((rawArgs args l a b).call env fuel A) B (rawArgs args l a b).precompFullscan
        ((rawArgs args l a b).precompensations env) := by
    refine scan_congr ?_
    intro d _
    refine call_perm env args pA lA (pB.map _) ?_ fuel
    rw [List.getLast?_map, List.getLast?_map, lB]
  rw [hscan]
  by_cases h0 : A = [] ∨ B = []
  · rw [if_pos h0, if_pos (by rw [eA, eB]; exact h0)]
  · rw [if_neg h0, if_neg (by rw [eA, eB]; exact h0)]
    rfl

/-- Instance of `C119_fpfind`: the files of C88 with the inner events reversed. -/
example : fpMain fpDemoEnv 25 (rawArgs (fpDemoArgs false false 0) true
      [(0, 1), (512000000, 1), (256001280, 1), (256000000, 1), (76800000000, 1)]
      [(0, 1), (512000000, 1), (256001024, 1), (256000000, 1), (1280, 1), (76800000000, 1)]) =
    some (.ok (some "6.00000799999556e-06\t-6\n".toList)) := by
  rw [C119_fpfind fpDemoEnv (fun x => fl_nonneg_iff 64 (by norm_num) x) 25 (fpDemoArgs false false 0) true
    [(0, 1), (256000000, 1), (256001280, 1), (512000000, 1), (76800000000, 1)]
    [(0, 1), (512000000, 1), (256001280, 1), (256000000, 1), (76800000000, 1)]
    [(0, 1), (1280, 1), (256000000, 1), (256001024, 1), (512000000, 1), (76800000000, 1)]
    [(0, 1), (512000000, 1), (256001024, 1), (256000000, 1), (1280, 1), (76800000000, 1)] (by simp [Valid]) (by simp [Valid])
    ⟨by decide, rfl, rfl⟩ ⟨by decide, rfl, rfl⟩ (by intro z hz; simp at hz; subst hz; simp) (by intro z hz; simp at hz; subst hz; simp)]
  decide +kernel

/-- The first event has to stay in its place, though it is in the middle of the recording of the other side: it is the beginning of the
time in which both recordings have events. -/
theorem C119_first_matters : ∃ a a' b : List (Nat × Nat), a.Perm a' ∧ a.getLast? = a'.getLast? ∧
    fpMain fpDemoEnv 25 (rawArgs (fpDemoArgs false false 0) true a' b) ≠ fpMain fpDemoEnv 25 (rawArgs (fpDemoArgs false false 0) true a b) := by
  refine ⟨[(0, 1), (256000000, 1), (256001280, 1), (512000000, 1), (76800000000, 1)],
    [(512000000, 1), (0, 1), (256000000, 1), (256001280, 1), (76800000000, 1)],
    [(0, 1), (1280, 1), (256000000, 1), (256001024, 1), (512000000, 1), (76800000000, 1)], by decide, rfl, ?_⟩
  decide +kernel

end Fp
