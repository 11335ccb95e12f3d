import Verif.Lemmas.ConvertFail
import Verif.Props.RawMain
import Verif.Props.RawText

/-! # C118: joined files -/
namespace Fp
open Spec

/-- **C118** (a1): reading a file of whole events followed by another file gives the events of the first one followed by those of
the second one, or the exception of the second one. -/
theorem C118_read_a1 (fw : Nat) (legacy : Bool) (res : Tsres) (frac : Bool) (f1 f2 : Bytes) (h8 : f1.length % 8 = 0) :
    ∃ e1, readA1 fw legacy res frac f1 = .ok e1 ∧
      readA1 fw legacy res frac (f1 ++ f2) = (readA1 fw legacy res frac f2).map fun e2 => e1 ++ e2 := by
  have words : ∀ (n : Nat) (f : Bytes), f.length = 8 * n → ∃ r, reshape2 (words32 f) = .ok r ∧
      ∀ g, reshape2 (words32 (f ++ g)) = (reshape2 (words32 g)).map fun s => r ++ s := by
    intro n
    induction n with
    | zero =>
      intro f hf
      have : f = [] := List.length_eq_zero_iff.mp (by omega)
      subst this
      refine ⟨[], rfl, fun g => ?_⟩
      rw [List.nil_append]
      cases reshape2 (words32 g) <;> rfl
    | succ n ih =>
      intro f hf
      match f, hf with
      | a :: b :: c :: d :: a' :: b' :: c' :: d' :: f, hf =>
        obtain ⟨r, hr, hg⟩ := ih f (by simp only [List.length_cons] at hf; omega)
        have step : ∀ g, reshape2 (words32 (a :: b :: c :: d :: a' :: b' :: c' :: d' :: g)) =
            (reshape2 (words32 g)).map fun s => (leNat [a, b, c, d], leNat [a', b', c', d']) :: s := by
          intro g
          rw [words32, words32, reshape2]
          cases reshape2 (words32 g) <;> rfl
        refine ⟨_ :: r, by rw [step, hr]; rfl, fun g => ?_⟩
        rw [List.cons_append, List.cons_append, List.cons_append, List.cons_append, List.cons_append, List.cons_append,
          List.cons_append, List.cons_append, step, hg]
        cases reshape2 (words32 g) <;> rfl
  obtain ⟨r, hr, hg⟩ := words (f1.length / 8) f1 (by omega)
  refine ⟨r.map (decodeRow fw legacy res frac), by unfold readA1; rw [hr]; rfl, ?_⟩
  unfold readA1
  rw [hg]
  cases reshape2 (words32 f2) with
  | error e => rfl
  | ok s => simp [bind, Except.bind, Except.map, pure, Except.pure]

theorem representable_sub {fmt : Fmt} {r s : List (Nat × Nat)} (h : Representable fmt s) (hr : r.Sublist s) : Representable fmt r := by
  cases fmt with
  | a0 => exact fun x hx => h x (hr.subset hx)
  | a1 => trivial
  | a2 => exact h.imp (fun h x hx => h x (hr.subset hx)) (fun h x hx => h x (hr.subset hx))

/-- **C118** (conversion): the joined file is converted to the joined conversions, whatever the formats and filters. -/
theorem C118_convert_partial (fw : Nat) (hfw : 54 ≤ fw) (args : TsArgs) (files : Files) (n1 n2 n : List Char)
    (r1 r2 : List (Nat × Nat)) (out : List Char) (hv : ∀ r ∈ r1 ++ r2, Valid r) (hrep : Representable args.inFmt (r1 ++ r2))
    (h1 : files n1 = some (fileOf args.inFmt args.legacyIn r1)) (h2 : files n2 = some (fileOf args.inFmt args.legacyIn r2))
    (h : files n = some (fileOf args.inFmt args.legacyIn r1 ++ fileOf args.inFmt args.legacyIn r2))
    (hout : args.outfile = some out) (hne : out ≠ []) (hdiff : n1 ≠ out ∧ n2 ≠ out ∧ n ≠ out) (hprint : args.print = false)
    (hmem : args.inmemory = false) (hpat : ∀ pat, args.filter.pattern = some pat → pat < 16)
    (hs : Timed args.filter → (r1 ++ r2).Pairwise (fun x y => x.1 ≤ y.1) ∧ ∀ r ∈ r1 ++ r2, r.1 < 2 ^ 53) :
    ∃ f1 f2, tsMain fw { args with infile := n1 } files = ⟨files.set out f1, none, none⟩ ∧
      tsMain fw { args with infile := n2 } files = ⟨files.set out f2, none, none⟩ ∧
      tsMain fw { args with infile := n } files = ⟨files.set out (f1 ++ f2), none, none⟩ := by
  have s1 : r1.Sublist (r1 ++ r2) := List.sublist_append_left _ _
  have s2 : r2.Sublist (r1 ++ r2) := List.sublist_append_right _ _
  have run : ∀ name r, r.Sublist (r1 ++ r2) → files name = some (fileOf args.inFmt args.legacyIn r) → name ≠ out →
      tsMain fw { args with infile := name } files =
        ⟨files.set out (fileOf args.outFmt args.legacyOut (filtered args.filter r)), none, none⟩ :=
    fun name r hr hf hd => C84_convert_stream_partial fw hfw { args with infile := name } files r out
      (fun x hx => hv x (hr.subset hx)) (representable_sub hrep hr) hf hout hne hd hprint hmem hpat
      (fun ht => ⟨(hs ht).1.sublist hr, fun x hx => (hs ht).2 x (hr.subset hx)⟩)
  refine ⟨_, _, run n1 r1 s1 h1 hdiff.1, run n2 r2 s2 h2 hdiff.2.1, ?_⟩
  rw [run n (r1 ++ r2) (List.Sublist.refl _) (by rw [fileOf_append]; exact h) hdiff.2.2, ← fileOf_append]
  simp only [filtered, List.filter_append, List.map_append]

/-- **C118** (report): the counts of the report on the joined file (`-p`) are the sums of those of the parts. -/
theorem C118_report (fw : Nat) (hfw : 54 ≤ fw) (args : TsArgs) (files : Files) (n1 n2 n : List Char)
    (e1 e2 : List (Nat × Nat)) (hv : ∀ r ∈ e1 ++ e2, Valid r) (hrep : Representable args.inFmt (e1 ++ e2))
    (h1 : files n1 = some (fileOf args.inFmt args.legacyIn e1)) (h2 : files n2 = some (fileOf args.inFmt args.legacyIn e2))
    (h : files n = some (fileOf args.inFmt args.legacyIn e1 ++ fileOf args.inFmt args.legacyIn e2))
    (hprint : args.print = true) (hmem : args.inmemory = false) (hpat : ∀ pat, args.filter.pattern = some pat → pat < 16)
    (hs : Timed args.filter → (e1 ++ e2).Pairwise (fun x y => x.1 ≤ y.1)) (h53 : args.filter.any = false → ∀ r ∈ e1 ++ e2, r.1 < 2 ^ 53) :
    ∃ r1 r2 r, (tsMain fw { args with infile := n1 } files).report = some r1 ∧ (tsMain fw { args with infile := n2 } files).report = some r2 ∧
      (tsMain fw { args with infile := n } files).report = some r ∧
      r.numEvents = r1.numEvents + r2.numEvents ∧ r.ch1 = r1.ch1 + r2.ch1 ∧ r.ch2 = r1.ch2 + r2.ch2 ∧ r.ch3 = r1.ch3 + r2.ch3 ∧
      r.ch4 = r1.ch4 + r2.ch4 ∧ r.multi = r1.multi + r2.multi ∧ r.non = r1.non + r2.non ∧
      (∀ x, x ∈ r.patterns ↔ x ∈ r1.patterns ∨ x ∈ r2.patterns) := by
  have run : ∀ name r, r.Sublist (e1 ++ e2) → files name = some (fileOf args.inFmt args.legacyIn r) →
      ∃ rep, (tsMain fw { args with infile := name } files).report = some rep ∧ Describes rep (filtered args.filter r) := by
    intro name r hr hf
    obtain ⟨rep, h1, h2⟩ := C85_stream fw hfw { args with infile := name } files r (fun x hx => hv x (hr.subset hx))
      (representable_sub hrep hr) hf hprint hmem hpat (fun ht => (hs ht).sublist hr) (fun ha x hx => h53 ha x (hr.subset hx))
    exact ⟨rep, by rw [h1], h2⟩
  obtain ⟨r1, p1, d1⟩ := run n1 e1 (List.sublist_append_left _ _) h1
  obtain ⟨r2, p2, d2⟩ := run n2 e2 (List.sublist_append_right _ _) h2
  obtain ⟨r, p, d⟩ := run n (e1 ++ e2) (List.Sublist.refl _) (by rw [fileOf_append]; exact h)
  refine ⟨r1, r2, r, p1, p2, p, ?_⟩
  rw [show filtered args.filter (e1 ++ e2) = filtered args.filter e1 ++ filtered args.filter e2 by
    simp only [filtered, List.filter_append, List.map_append]] at d
  generalize filtered args.filter e1 = e1 at d d1
  generalize filtered args.filter e2 = e2 at d d2
  obtain ⟨a1, a2, a3, a4, a5, a6, a7, -, -, -, a11⟩ := d1
  obtain ⟨b1, b2, b3, b4, b5, b6, b7, -, -, -, b11⟩ := d2
  obtain ⟨c1, c2, c3, c4, c5, c6, c7, -, -, -, c11⟩ := d
  rw [List.map_append] at c2 c3 c4 c5 c6 c7 c11
  rw [List.countP_append] at c2 c3 c4 c5 c6 c7
  refine ⟨by rw [c1, a1, b1, List.length_append], by rw [c2, a2, b2], by rw [c3, a3, b3], by rw [c4, a4, b4], by rw [c5, a5, b5],
    by rw [c6, a6, b6], by rw [c7, a7, b7], fun x => ?_⟩
  rw [c11, a11, b11, List.mem_append]

/-- **C118** is violated for a2 files read at once: a file of events below 2^53 units and a file of events from there on are both
read, their join is not. -/
theorem C118_a2_violated (fw : Nat) (hfw : 54 ≤ fw) (res : Tsres) (frac : Bool) (r1 r2 : List (Nat × Nat)) (hl1 : 2 ≤ r1.length)
    (hl2 : 2 ≤ r2.length) (hv : ∀ r ∈ r1 ++ r2, Valid r) (h1 : ∀ r ∈ r1, r.1 < 2 ^ 53) (h2 : ∀ r ∈ r2, 2 ^ 53 ≤ r.1) :
    (∃ e1, readA2 fw res frac (r1.flatMap a2Event) = .ok e1) ∧ (∃ e2, readA2 fw res frac (r2.flatMap a2Event) = .ok e2) ∧
      readA2 fw res frac (r1.flatMap a2Event ++ r2.flatMap a2Event) = .error .typeError := by
  have ev := fun (r : List (Nat × Nat)) (hr : r.Sublist (r1 ++ r2)) => raw_events r fun x hx => hv x (hr.subset hx)
  have e1 := ev r1 (List.sublist_append_left _ _)
  have e2 := ev r2 (List.sublist_append_right _ _)
  have e := ev (r1 ++ r2) (List.Sublist.refl _)
  have a1 := C06_a2_roundtrip_partial fw hfw .ps4 res frac _ r1 hl1 e1 (Or.inl h1)
  have a2 := C06_a2_roundtrip_partial fw hfw .ps4 res frac _ r2 hl2 e2 (Or.inr h2)
  rw [C06_a2_file fw hfw .ps4 _ _ e1] at a1
  rw [C06_a2_file fw hfw .ps4 _ _ e2] at a2
  have a := C06_a2_negation_mixed fw hfw .ps4 res frac _ (r1 ++ r2) e
    (by obtain ⟨x, hx⟩ := List.exists_mem_of_length_pos (by omega : 0 < r1.length); exact ⟨x, by simp [hx], h1 x hx⟩)
    (by obtain ⟨x, hx⟩ := List.exists_mem_of_length_pos (by omega : 0 < r2.length); exact ⟨x, by simp [hx], h2 x hx⟩)
  rw [C06_a2_file fw hfw .ps4 _ _ e, List.flatMap_append] at a
  exact ⟨⟨_, a1⟩, ⟨_, a2⟩, a⟩

/-- Two events, 10 hours, two events. -/
example : ∀ r ∈ [(1, 1), (2, 4)] ++ [(2 ^ 53, 1), (2 ^ 53 + 5, 2)], Valid r := by simp [Valid]

/-- Joining keeps the order when the second recording was made later. -/
example : Representable .a0 ([(1, 1), (2, 4)] ++ [(7, 1), (9, 2)]) ∧ ([(1, 1), (2, 4)] ++ [(7, 1), (9, 2)]).Pairwise (fun x y : Nat × Nat => x.1 ≤ y.1) := by
  constructor
  · intro r hr; simp at hr; rcases hr with rfl | rfl | rfl | rfl <;> simp
  · decide

end Fp
