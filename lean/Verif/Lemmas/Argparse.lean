import Verif.Spec.Argparse
import Verif.Lemmas.Decimal

/-! # Lemmas about command lines -/
namespace Fp
open Spec

theorem table_names (S : ArgSpec) : S.table.map (·.1) = S.opts.flatMap ArgOpt.names := by
  unfold ArgSpec.table
  rw [List.map_flatMap]
  congr 1
  funext o
  rw [List.map_map]
  exact List.map_id _

theorem mem_table {S : ArgSpec} {o : ArgOpt} {n : Word} (ho : o ∈ S.opts) (hn : n ∈ o.names) : (n, o) ∈ S.table :=
  List.mem_flatMap.mpr ⟨o, ho, List.mem_map.mpr ⟨n, hn, rfl⟩⟩

theorem table_mem {S : ArgSpec} {x : Word × ArgOpt} (h : x ∈ S.table) : x.2 ∈ S.opts ∧ x.1 ∈ x.2.names := by
  obtain ⟨o, ho, h2⟩ := List.mem_flatMap.mp h
  obtain ⟨n, hn, rfl⟩ := List.mem_map.mp h2
  exact ⟨ho, hn⟩

/-- In a list of pairs with different first components, there is one pair for a first component. -/
theorem find_unique {β : Type} {l : List (Word × β)} (h : (l.map (·.1)).Nodup) {n : Word} {o : β} (hm : (n, o) ∈ l) :
    l.find? (fun x => x.1 = n) = some (n, o) := by
  induction l with
  | nil => simp at hm
  | cons x l ih =>
    rw [List.map_cons, List.nodup_cons] at h
    rcases List.mem_cons.mp hm with rfl | hm
    · simp
    · have hx : x.1 ≠ n := fun e => h.1 (e ▸ List.mem_map.mpr ⟨_, hm, rfl⟩)
      rw [List.find?_cons_of_neg (by simpa using hx), ih h.2 hm]

theorem filterMap_unique {β γ : Type} {l : List (Word × β)} (h : (l.map (·.1)).Nodup) {n : Word} {o : β} (hm : (n, o) ∈ l)
    (f : Word × β → Option γ) (hf : ∀ x ∈ l, x.1 ≠ n → f x = none) : l.filterMap f = (f (n, o)).toList := by
  induction l with
  | nil => simp at hm
  | cons x l ih =>
    rw [List.map_cons, List.nodup_cons] at h
    rcases List.mem_cons.mp hm with rfl | hm
    · have : l.filterMap f = [] := by
        rw [List.filterMap_eq_nil_iff]
        intro y hy
        exact hf y (List.mem_cons_of_mem _ hy) fun e => h.1 (e ▸ List.mem_map.mpr ⟨_, hy, rfl⟩)
      rw [List.filterMap_cons]
      cases f (n, o) <;> simp [this]
    · have hx : x.1 ≠ n := fun e => h.1 (e ▸ List.mem_map.mpr ⟨_, hm, rfl⟩)
      rw [List.filterMap_cons, hf x List.mem_cons_self hx, ih h.2 hm fun y hy => hf y (List.mem_cons_of_mem _ hy)]

variable {S : ArgSpec}

theorem find_name (hS : GoodSpec S) {o : ArgOpt} {n : Word} (ho : o ∈ S.opts) (hn : n ∈ o.names) : S.find n = some o := by
  unfold ArgSpec.find
  rw [find_unique (by rw [table_names]; exact hS.nodup) (mem_table ho hn)]
  rfl

theorem find_none (w : Word) (h : ∀ o ∈ S.opts, ∀ n ∈ o.names, n ≠ w) : S.find w = none := by
  unfold ArgSpec.find
  rw [List.find?_eq_none.mpr]
  · rfl
  · intro x hx
    simpa using h x.2 (table_mem hx).1 x.1 (table_mem hx).2

theorem name_head (hS : GoodSpec S) {o : ArgOpt} {n : Word} (ho : o ∈ S.opts) (hn : n ∈ o.names) :
    n.head? = some '-' ∧ n ≠ ['-', '-'] ∧ '=' ∉ n ∧ 2 ≤ n.length := by
  rcases hS.names o ho n hn with ⟨c, rfl, h1, h2, _⟩ | ⟨r, rfl, h1, h2⟩
  · simp [h1, Ne.symm h2]
  · simp [h1, h2]

/-- The first character after the dash of a short name is not a dash. -/
theorem short_ne (hS : GoodSpec S) {o : ArgOpt} {c : Char} (ho : o ∈ S.opts) (hn : ['-', c] ∈ o.names) : c ≠ '-' ∧ c ≠ '=' := by
  rcases hS.names o ho _ hn with ⟨d, h, h1, h2, _⟩ | ⟨r, h, h1, _⟩
  · obtain rfl : c = d := by simpa using h
    exact ⟨h1, h2⟩
  · simp at h
    exact absurd h.2 h1

theorem parse_name (hS : GoodSpec S) {o : ArgOpt} {n : Word} (ho : o ∈ S.opts) (hn : n ∈ o.names) :
    parseOptional S n = some (some ⟨some o, n, false, none⟩) := by
  unfold parseOptional
  rw [if_neg (by simp [(name_head hS ho hn).1]), find_name hS ho hn]

theorem partition_eq (n v : Word) (h : '=' ∉ n) : pyPartition ['='] (n ++ '=' :: v) = (n, true, v) := by
  induction n with
  | nil => simp [pyPartition]
  | cons c n ih =>
    rw [List.mem_cons, not_or] at h
    rw [List.cons_append, pyPartition, if_neg (by simpa using h.1), ih h.2]

theorem partition_none (n : Word) (h : '=' ∉ n) : pyPartition ['='] n = (n, false, []) := by
  induction n with
  | nil => simp [pyPartition]
  | cons c n ih =>
    rw [List.mem_cons, not_or] at h
    rw [pyPartition, if_neg (by simpa using h.1), ih h.2]

/-- Every word is split at its first `=`, or has none. -/
theorem partition_cases (w : Word) : ('=' ∉ w ∧ pyPartition ['='] w = (w, false, [])) ∨
    ∃ p v, w = p ++ '=' :: v ∧ '=' ∉ p ∧ pyPartition ['='] w = (p, true, v) := by
  by_cases h : '=' ∈ w
  · obtain ⟨p, v, rfl, hp⟩ := List.eq_append_cons_of_mem h
    exact Or.inr ⟨p, v, rfl, hp, partition_eq p v hp⟩
  · exact Or.inl ⟨h, partition_none w h⟩

theorem parse_equals (hS : GoodSpec S) {o : ArgOpt} {n : Word} (ho : o ∈ S.opts) (hn : n ∈ o.names) (v : Word) :
    parseOptional S (n ++ '=' :: v) = some (some ⟨some o, n, true, some v⟩) := by
  obtain ⟨h1, -, h3, h4⟩ := name_head hS ho hn
  unfold parseOptional
  rw [if_neg (by rw [List.head?_append, h1]; simp), find_none _ fun o' ho' n' hn' e =>
    (name_head hS ho' hn').2.2.1 (e ▸ by simp)]
  simp only [partition_eq n v h3, if_true, find_name hS ho hn]
  rw [if_neg (by simp; omega)]

/-- Words of letters. -/
theorem parse_letters (hS : GoodSpec S) {o : ArgOpt} {c d : Char} {v : Word} (ho : o ∈ S.opts) (hn : ['-', c] ∈ o.names) (hd : d ≠ '=') :
    parseOptional S ('-' :: c :: d :: v) = some (some ⟨some o, ['-', c], false, some (d :: v)⟩) := by
  obtain ⟨hc1, hc2⟩ := short_ne hS ho hn
  have hlong : ∀ o' ∈ S.opts, ∀ n' ∈ o'.names, ∀ r, n' ≠ '-' :: c :: d :: r := by
    intro o' ho' n' hn' r e
    rcases hS.names o' ho' n' hn' with ⟨c', h, _⟩ | ⟨r', h, _⟩
    · rw [e] at h
      simp at h
    · rw [e] at h
      simp at h
      exact hc1 h.1
  have htab : optionTuples S ('-' :: c :: d :: v) = [⟨some o, ['-', c], false, some (d :: v)⟩] := by
    unfold optionTuples
    rw [if_neg (by simpa using hc1)]
    rw [filterMap_unique (by rw [table_names]; exact hS.nodup) (mem_table ho hn)]
    · simp
    · intro x hx hne
      rw [if_neg (by simpa using hne), if_neg]
      intro hp
      obtain ⟨t, ht⟩ := List.isPrefixOf_iff_prefix.mp hp
      exact hlong x.2 (table_mem hx).1 x.1 (table_mem hx).2 (v ++ t) (by rw [← ht]; simp)
  unfold parseOptional
  rw [if_neg (by simp), find_none _ fun o' ho' n' hn' => hlong o' ho' n' hn' v]
  rw [htab]
  rcases partition_cases ('-' :: c :: d :: v) with ⟨_, h2⟩ | ⟨p, w, h1, _, h2⟩
  · simp [h2]
  · have : S.find p = none := by
      obtain ⟨p', rfl⟩ : ∃ p', p = '-' :: c :: d :: p' := by
        rcases p with _ | ⟨a, _ | ⟨b, _ | ⟨e, p⟩⟩⟩
        · simp at h1
        · simp at h1
          exact absurd h1.2.1 hc2
        · simp at h1
          exact absurd h1.2.2.1 hd
        · simp at h1
          exact ⟨p, by rw [h1.1, h1.2.1, h1.2.2.1]⟩
      exact find_none _ fun o' ho' n' hn' => hlong o' ho' n' hn' p'
    simp [h2, this]

theorem takeWhile_digits (I r : List Char) (h : ∀ c ∈ I, c.isDigit = true) (hr : ∀ c, r.head? = some c → c.isDigit = false) :
    (I ++ r).takeWhile Char.isDigit = I ∧ (I ++ r).dropWhile Char.isDigit = r := by
  induction I with
  | nil =>
    cases r with
    | nil => simp
    | cons c r => simp [hr c rfl]
  | cons c I ih =>
    obtain ⟨h1, h2⟩ := ih fun x hx => h x (List.mem_cons_of_mem _ hx)
    simp [h c List.mem_cons_self, h1, h2]

theorem digit_not_nl {c : Char} (h : c.isDigit = true) : c ≠ '\n' := by
  rintro rfl
  simp at h

theorem looksNegative_spec {w : Word} (h : NegNumber w) : looksNegative w = true := by
  obtain ⟨I, F, hI, hF, ⟨rfl, hne⟩ | ⟨rfl, hne⟩⟩ := h
  · have hl : I.getLast? ≠ some '\n' := fun e => digit_not_nl (hI _ (List.mem_of_getLast? e)) rfl
    unfold looksNegative
    simp only [if_neg hl]
    obtain ⟨h1, h2⟩ := takeWhile_digits I [] hI (by simp)
    rw [List.append_nil] at h1 h2
    simp [h1, h2, hne]
  · have hl : (I ++ '.' :: F).getLast? ≠ some '\n' := by
      intro e
      rw [List.getLast?_append, List.getLast?_cons] at e
      obtain ⟨f, F', rfl⟩ := List.exists_cons_of_ne_nil hne
      simp only [List.getLast?_cons, Option.getD_some, Option.some_or] at e
      simp only [Option.some.injEq] at e
      have h3 : F'.getLast?.getD f ∈ f :: F' := by
        cases h : F'.getLast? with
        | none => simp
        | some x => exact List.mem_cons_of_mem _ (List.mem_of_getLast? h)
      rw [e] at h3
      exact digit_not_nl (hF _ h3) rfl
    unfold looksNegative
    simp only [if_neg hl]
    obtain ⟨h1, h2⟩ := takeWhile_digits I ('.' :: F) hI (by simp)
    rw [h2]
    simp [hne]
    exact hF

theorem parse_plain (hS : GoodSpec S) {w : Word} (h : PlainWord w) : parseOptional S w = some none := by
  rcases h with h | rfl | h
  · unfold parseOptional
    rw [if_pos h]
  · unfold parseOptional
    rw [if_neg (by simp), find_none _ fun o ho n hn e => by have := (name_head hS ho hn).2.2.2; rw [e] at this; simp at this]
    simp
  · have hneg := looksNegative_spec h
    -- the second character is a digit or a point
    obtain ⟨d, r, rfl, hd⟩ : ∃ d r, w = '-' :: d :: r ∧ (d.isDigit = true ∨ d = '.') := by
      obtain ⟨I, F, hI, hF, ⟨rfl, hne⟩ | ⟨rfl, hne⟩⟩ := h
      · obtain ⟨i, I', rfl⟩ := List.exists_cons_of_ne_nil hne
        exact ⟨i, I', rfl, Or.inl (hI i List.mem_cons_self)⟩
      · cases I with
        | nil => exact ⟨'.', F, rfl, Or.inr rfl⟩
        | cons i I' => exact ⟨i, I' ++ '.' :: F, rfl, Or.inl (hI i List.mem_cons_self)⟩
    have hd1 : d ≠ '-' := by
      rintro rfl
      simp at hd
    have hno : ∀ o ∈ S.opts, ∀ n ∈ o.names, ∀ r, n ≠ '-' :: d :: r := by
      intro o ho n hn r e
      rcases hS.names o ho n hn with ⟨c, h1, _, _, h2, h3⟩ | ⟨r', h1, _⟩
      · rw [e] at h1
        simp at h1
        rcases hd with hd | hd
        · rw [h1.1, h3] at hd
          simp at hd
        · exact h2 (h1.1 ▸ hd)
      · rw [e] at h1
        simp at h1
        exact hd1 h1.1
    have htab : optionTuples S ('-' :: d :: r) = [] := by
      unfold optionTuples
      rw [if_neg (by simpa using hd1), List.filterMap_eq_nil_iff]
      intro x hx
      rw [if_neg, if_neg]
      · intro hp
        obtain ⟨t, ht⟩ := List.isPrefixOf_iff_prefix.mp hp
        exact hno x.2 (table_mem hx).1 x.1 (table_mem hx).2 (r ++ t) (by rw [← ht]; simp)
      · intro e
        exact hno x.2 (table_mem hx).1 x.1 (table_mem hx).2 [] (by rw [e]; simp)
    unfold parseOptional
    rw [if_neg (by simp), find_none _ fun o ho n hn => hno o ho n hn r, htab]
    rcases partition_cases ('-' :: d :: r) with ⟨_, h2⟩ | ⟨p, v, h1, _, h2⟩
    · simp [h2, hneg]
    · have : S.find p = none := by
        refine find_none _ fun o ho n hn e => ?_
        have h3 := (name_head hS ho hn).2.2.2
        rcases p with _ | ⟨a, _ | ⟨b, p⟩⟩
        · rw [e] at h3; simp at h3
        · rw [e] at h3; simp at h3
        · simp at h1
          exact hno o ho n hn p (by rw [e, h1.1, h1.2.1])
      simp [h2, this, hneg]

theorem plain_ne {w : Word} (h : PlainWord w) : w ≠ ['-', '-'] := by
  rintro rfl
  rcases h with h | h | ⟨I, F, hI, hF, ⟨h, hne⟩ | ⟨h, hne⟩⟩
  · simp at h
  · simp at h
  · obtain rfl : I = ['-'] := by simpa using h.symm
    have := hI '-' (by simp)
    simp at this
  · cases I with
    | nil => simp at h
    | cons i I =>
      simp at h

/-- How the words of a setting are classified. -/
def Spec.Setting.cls : Setting → List (ArgCls × Word)
  | .flag o n => [(.o ⟨some o, n, false, none⟩, n)]
  | .pair o n v => [(.o ⟨some o, n, false, none⟩, n), (.a, v)]
  | .equals o n v => [(.o ⟨some o, n, true, some v⟩, n ++ '=' :: v)]
  | .letters [] o c [] => [(.o ⟨some o, ['-', c], false, none⟩, ['-', c])]
  | .letters [] o c (d :: v) => [(.o ⟨some o, ['-', c], false, some (d :: v)⟩, '-' :: c :: d :: v)]
  | .letters ((o1, c1) :: fs) _ c v =>
    [(.o ⟨some o1, ['-', c1], false, some (fs.map (·.2) ++ c :: v)⟩, '-' :: c1 :: (fs.map (·.2) ++ c :: v))]

theorem classify_opt {w : Word} {h : OptHit} (hw : w ≠ ['-', '-']) (hp : parseOptional S w = some (some h)) (ws : List Word) :
    classify S (w :: ws) = (classify S ws).map ((.o h, w) :: ·) := by
  rw [classify, if_neg hw, hp]
  cases classify S ws <;> rfl

theorem classify_arg {w : Word} (hw : w ≠ ['-', '-']) (hp : parseOptional S w = some none) (ws : List Word) :
    classify S (w :: ws) = (classify S ws).map ((.a, w) :: ·) := by
  rw [classify, if_neg hw, hp]
  cases classify S ws <;> rfl

theorem letters_first {fs : List (ArgOpt × Char)} {c : Char} {v : Word} (hfs : ∀ x ∈ fs, x.2 ≠ '=') (hc : c ≠ '=') :
    ∃ d r, fs.map (·.2) ++ c :: v = d :: r ∧ d ≠ '=' := by
  cases fs with
  | nil => exact ⟨c, v, rfl, hc⟩
  | cons x fs => exact ⟨x.2, fs.map (·.2) ++ c :: v, rfl, hfs x List.mem_cons_self⟩

theorem classify_setting (hS : GoodSpec S) {s : Setting} (hs : s.Ok S) (ws : List Word) :
    classify S (s.words ++ ws) = (classify S ws).map (s.cls ++ ·) := by
  cases s with
  | flag o n =>
    obtain ⟨ho, hn, -⟩ := hs
    exact classify_opt (name_head hS ho hn).2.1 (parse_name hS ho hn) ws
  | pair o n v =>
    obtain ⟨ho, hn, -, -, hv⟩ := hs
    show classify S (n :: v :: ws) = _
    rw [classify_opt (name_head hS ho hn).2.1 (parse_name hS ho hn), classify_arg (plain_ne hv) (parse_plain hS hv), Option.map_map]
    rfl
  | equals o n v =>
    obtain ⟨ho, hn, -⟩ := hs
    exact classify_opt (fun e => by have : '=' ∈ n ++ '=' :: v := by simp
                                    rw [e] at this
                                    simp at this) (parse_equals hS ho hn v) ws
  | letters fs o c v =>
    obtain ⟨hfs, ho, hn, hv⟩ := hs
    obtain ⟨hc1, hc2⟩ := short_ne hS ho hn
    cases fs with
    | nil =>
      cases v with
      | nil => exact classify_opt (by simp [hc1]) (parse_name hS ho hn) ws
      | cons d v =>
        have hd : d ≠ '=' := by
          rcases hv with ⟨_, h⟩ | ⟨_, _, h, _⟩
          · simp at h
          · simpa using h
        exact classify_opt (by simp) (parse_letters hS ho hn hd) ws
    | cons x fs =>
      obtain ⟨o1, c1⟩ := x
      obtain ⟨h1, h2, -⟩ := hfs _ List.mem_cons_self
      obtain ⟨d, r, e, hd⟩ := letters_first (fs := fs) (c := c) (v := v)
        (fun y hy => (short_ne hS (hfs y (List.mem_cons_of_mem _ hy)).1 (hfs y (List.mem_cons_of_mem _ hy)).2.1).2) hc2
      have := classify_opt (w := '-' :: c1 :: d :: r) (by simp) (parse_letters hS h1 h2 hd) ws
      rw [← e] at this
      exact this

theorem classify_settings (hS : GoodSpec S) {l : List Setting} (hl : ∀ s ∈ l, s.Ok S) (ws : List Word) :
    classify S (cmdWords l ++ ws) = (classify S ws).map (l.flatMap Setting.cls ++ ·) := by
  induction l with
  | nil => simp [cmdWords]
  | cons s l ih =>
    have e : cmdWords (s :: l) ++ ws = s.words ++ (cmdWords l ++ ws) := by simp [cmdWords]
    rw [e, classify_setting hS (hl s List.mem_cons_self), ih fun x hx => hl x (List.mem_cons_of_mem _ hx), Option.map_map]
    congr 1
    funext x
    simp

theorem cluster_next {o1 o2 : ArgOpt} {c1 c2 d : Char} {r : Word} (h1 : o1.kind = .flag) (hc1 : c1 ≠ '-') (hc2 : c2 ≠ '-')
    (hf : S.find ['-', c2] = some o2) (hd : d ≠ '=') :
    cluster S o1 ['-', c1] false (c2 :: d :: r) = match cluster S o2 ['-', c2] false (d :: r) with
      | .error e => .error e
      | .ok x => .ok { x with done := (o1, []) :: x.done } := by
  rw [cluster.eq_def]
  simp [h1, ArgKind.takesNone, hc1, hc2, hf]
  cases cluster S o2 ['-', c2] false (d :: r) <;> rfl

theorem cluster_letters (hS : GoodSpec S) (fs : List (ArgOpt × Char))
    (hfs : ∀ x ∈ fs, x.1 ∈ S.opts ∧ ['-', x.2] ∈ x.1.names ∧ x.1.kind = .flag) {o : ArgOpt} {c : Char} {v : Word}
    (ho : o ∈ S.opts) (hn : ['-', c] ∈ o.names) (hv : (o.kind = .flag ∧ v = []) ∨ (o.kind = .value ∧ v ≠ [] ∧ v.head? ≠ some '='))
    (o1 : ArgOpt) (c1 : Char) (h1 : o1.kind = .flag) (hc1 : c1 ≠ '-') :
    cluster S o1 ['-', c1] false (fs.map (·.2) ++ c :: v) =
      .ok (if o.kind = .value then ⟨(o1, []) :: fs.map (fun x => (x.1, [])) ++ [(o, [v])], none, none⟩
        else ⟨(o1, []) :: fs.map (fun x => (x.1, [])), none, some o⟩) := by
  induction fs generalizing o1 c1 with
  | nil =>
    obtain ⟨hc, -⟩ := short_ne hS ho hn
    simp only [List.map_nil, List.nil_append]
    rcases hv with ⟨hk, rfl⟩ | ⟨hk, hv1, hv2⟩
    · rw [cluster.eq_def]
      simp [h1, ArgKind.takesNone, hc1, hc, find_name hS ho hn, hk]
    · obtain ⟨d, v', rfl⟩ := List.exists_cons_of_ne_nil hv1
      have hd : d ≠ '=' := by simpa using hv2
      have e : cluster S o ['-', c] false (d :: v') = .ok ⟨[(o, [d :: v'])], none, none⟩ := by
        rw [cluster.eq_def, hk]
        simp [ArgKind.takesNone]
      rw [cluster_next h1 hc1 hc (find_name hS ho hn) hd, e]
      simp [hk]
  | cons x fs ih =>
    obtain ⟨o2, c2⟩ := x
    obtain ⟨h2, h3, h4⟩ := hfs _ List.mem_cons_self
    obtain ⟨hc2, -⟩ := short_ne hS h2 h3
    have e := ih (fun y hy => hfs y (List.mem_cons_of_mem _ hy)) o2 c2 h4 hc2
    obtain ⟨d, r, er, hd⟩ := letters_first (fs := fs) (c := c) (v := v)
      (fun y hy => (short_ne hS (hfs y (List.mem_cons_of_mem _ hy)).1 (hfs y (List.mem_cons_of_mem _ hy)).2.1).2) (short_ne hS ho hn).2
    rw [er] at e
    simp only [List.map_cons, List.cons_append]
    rw [er, cluster_next h1 hc1 hc2 (find_name hS h2 h3) hd, e]
    by_cases hk : o.kind = .value <;> simp [hk]

theorem takeActions_append (l1 l2 : List (ArgOpt × List Word)) (t1 : List (String × List Word)) (h : takeActions l1 = .ok t1) :
    takeActions (l1 ++ l2) = match takeActions l2 with | .error e => .error e | .ok t2 => .ok (t1 ++ t2) := by
  induction l1 generalizing t1 with
  | nil =>
    simp only [takeActions, Except.ok.injEq] at h
    subst h
    rw [List.nil_append]
    cases takeActions l2 <;> rfl
  | cons x l1 ih =>
    obtain ⟨o, vs⟩ := x
    simp only [takeActions, List.cons_append] at h ⊢
    cases hx : takeAction o vs with
    | error e => rw [hx] at h; simp at h
    | ok t =>
      rw [hx] at h
      simp only at h ⊢
      cases hl : takeActions l1 with
      | error e => rw [hl] at h; simp at h
      | ok r =>
        rw [hl] at h
        simp only [Except.ok.injEq] at h
        rw [ih r hl, ← h]
        cases takeActions l2 <;> rfl

theorem takeActions_flags (l : List (ArgOpt × Char)) (h : ∀ x ∈ l, x.1.kind = .flag) :
    takeActions (l.map fun x => (x.1, [])) = .ok (l.map fun x => (x.1.dest, [])) := by
  induction l with
  | nil => rfl
  | cons x l ih =>
    simp only [List.map_cons, takeActions]
    rw [ih fun y hy => h y (List.mem_cons_of_mem _ hy)]
    simp [takeAction, h x List.mem_cons_self]

theorem takeActions_one (o : ArgOpt) (vs : List Word) (hk : o.kind ≠ .help) (hv : ∀ v ∈ vs, o.ok v = true) :
    takeActions [(o, vs)] = .ok [(o.dest, vs)] := by
  have : vs.all o.ok = true := List.all_eq_true.mpr hv
  simp [takeActions, takeAction, this, hk]

/-- One step of the loop for a setting. -/
theorem loop_setting (hS : GoodSpec S) {s : Setting} (hs : s.Ok S) (n : Nat) (tail : List (ArgCls × Word)) (ps : List ArgPos) :
    argLoop S (n + 1) (s.cls ++ tail) ps = match argLoop S n tail ps with
      | .error e => .error e
      | .ok (t2, ex2, ps2) => .ok (s.sets ++ t2, ex2, ps2) := by
  have step : ∀ (h : OptHit) (w : Word) (r : List (ArgCls × Word)),
      consumeOpt S h w r = .ok (s.sets, [], tail) → argLoop S (n + 1) ((.o h, w) :: r) ps = match argLoop S n tail ps with
      | .error e => .error e
      | .ok (t2, ex2, ps2) => .ok (s.sets ++ t2, ex2, ps2) := by
    intro h w r e
    rw [argLoop, if_neg (by simp [ArgCls.isOpt])]
    simp only [e]
    cases argLoop S n tail ps with
    | error e => rfl
    | ok x => simp
  cases s with
  | flag o n =>
    obtain ⟨ho, hn, hk⟩ := hs
    refine step _ _ _ ?_
    simp [consumeOpt, matchArgument, hk, takeActions_one o [] (by simp [hk]) (by simp), Setting.sets]
  | pair o n v =>
    obtain ⟨ho, hn, hk, hv, -⟩ := hs
    refine step _ _ _ ?_
    simp [consumeOpt, matchArgument, hk, takeActions_one o [v] (by simp [hk]) (by simpa using hv), Setting.sets]
  | equals o n v =>
    obtain ⟨ho, hn, hk, hv⟩ := hs
    refine step _ _ _ ?_
    have e : cluster S o n true v = .ok ⟨[(o, [v])], none, none⟩ := by
      rw [cluster.eq_def, hk]
      simp [ArgKind.takesNone]
    simp [consumeOpt, e, takeActions_one o [v] (by simp [hk]) (by simpa using hv), Setting.sets]
  | letters fs o c v =>
    obtain ⟨hfs, ho, hn, hv⟩ := hs
    cases fs with
    | nil =>
      cases v with
      | nil =>
        have hk : o.kind = .flag := by
          rcases hv with ⟨h, _⟩ | ⟨_, h, _⟩
          · exact h
          · simp at h
        refine step _ _ _ ?_
        simp [consumeOpt, matchArgument, hk, takeActions_one o [] (by simp [hk]) (by simp), Setting.sets]
      | cons d v =>
        obtain ⟨hk, -, -, hv⟩ : o.kind = .value ∧ _ := by
          rcases hv with ⟨_, h⟩ | h
          · simp at h
          · exact h
        refine step _ _ _ ?_
        have e : cluster S o ['-', c] false (d :: v) = .ok ⟨[(o, [d :: v])], none, none⟩ := by
          rw [cluster.eq_def, hk]
          simp [ArgKind.takesNone]
        simp [consumeOpt, e, takeActions_one o [d :: v] (by simp [hk]) (by simpa using hv), Setting.sets, hk]
    | cons x fs =>
      obtain ⟨o1, c1⟩ := x
      obtain ⟨h1, h2, h3⟩ := hfs _ List.mem_cons_self
      refine step _ _ _ ?_
      have e := cluster_letters hS fs (fun y hy => hfs y (List.mem_cons_of_mem _ hy)) ho hn
        (v := v) (hv.imp id fun h => ⟨h.1, h.2.1, h.2.2.1⟩) o1 c1 h3 (short_ne hS h1 h2).1
      have ef : takeActions ((o1, []) :: fs.map fun x => (x.1, [])) = .ok ((o1.dest, []) :: fs.map fun x => (x.1.dest, [])) :=
        takeActions_flags ((o1, c1) :: fs) fun y hy => (hfs y hy).2.2
      rcases hv with ⟨hk, rfl⟩ | ⟨hk, _, _, hv⟩
      · rw [if_neg (by simp [hk])] at e
        simp only [consumeOpt, e, hk, matchArgument, List.take_zero, List.map_nil, List.drop_zero]
        rw [takeActions_append _ _ _ ef, takeActions_one o [] (by simp [hk]) (by simp)]
        simp [Setting.sets, hk]
      · rw [if_pos hk] at e
        simp only [consumeOpt, e]
        rw [takeActions_append _ _ _ ef, takeActions_one o [v] (by simp [hk]) (by simpa using hv)]
        simp [Setting.sets, hk]

theorem loop_settings (hS : GoodSpec S) {l : List Setting} (hl : ∀ s ∈ l, s.Ok S) (n : Nat) (tail : List (ArgCls × Word))
    (ps : List ArgPos) :
    argLoop S (n + l.length) (l.flatMap Setting.cls ++ tail) ps = match argLoop S n tail ps with
      | .error e => .error e
      | .ok (t2, ex2, ps2) => .ok (cmdSets l ++ t2, ex2, ps2) := by
  induction l with
  | nil =>
    simp only [List.length_nil, Nat.add_zero, List.flatMap_nil, List.nil_append, cmdSets]
    cases argLoop S n tail ps <;> rfl
  | cons s l ih =>
    have e : (s :: l).flatMap Setting.cls ++ tail = s.cls ++ (l.flatMap Setting.cls ++ tail) := by simp
    rw [e, List.length_cons, ← Nat.add_assoc, loop_setting hS (hl s List.mem_cons_self), ih fun x hx => hl x (List.mem_cons_of_mem _ hx)]
    cases argLoop S n tail ps with
    | error e => rfl
    | ok x => simp [cmdSets]

theorem cls_length (s : Setting) : 1 ≤ s.cls.length := by
  unfold Setting.cls
  split <;> simp

theorem settings_length (l : List Setting) : l.length ≤ (l.flatMap Setting.cls).length := by
  induction l with
  | nil => simp
  | cons s l ih =>
    have := cls_length s
    simp only [List.flatMap_cons, List.length_append, List.length_cons]
    omega

/-- Settings, then words that are no options. -/
theorem parse_tail (hS : GoodSpec S) {l : List Setting} (hl : ∀ s ∈ l, s.Ok S) {ws : List Word} {tail : List (ArgCls × Word)}
    (hc : classify S ws = some tail) (ht : tail.any (fun x => x.1.isOpt) = false) :
    argParse S (cmdWords l ++ ws) =
      if (∃ o ∈ S.opts, o.required = true ∧ ∀ x ∈ cmdSets l ++ (consumePos S.pos tail).1, x.1 ≠ o.dest) ∨
        (∃ p ∈ (consumePos S.pos tail).2.1, p.optional = false) ∨ (consumePos S.pos tail).2.2.map (·.2) ≠ [] then .error .error
      else .ok (cmdSets l ++ (consumePos S.pos tail).1) := by
  have h := settings_length l
  obtain ⟨n, hn⟩ : ∃ n, (l.flatMap Setting.cls ++ tail).length + 1 = n + 1 + l.length := by
    refine ⟨(l.flatMap Setting.cls ++ tail).length - l.length, ?_⟩
    rw [List.length_append]
    omega
  unfold argParse
  rw [classify_settings hS hl, hc]
  simp only [Option.map_some]
  rw [hn, loop_settings hS hl]
  have : argLoop S (n + 1) tail S.pos = .ok ((consumePos S.pos tail).1, (consumePos S.pos tail).2.2.map (·.2), (consumePos S.pos tail).2.1) := by
    rw [argLoop, if_pos (by simp [ht])]
    intro h w r e
    rw [e] at ht
    simp [ArgCls.isOpt] at ht
  rw [this]

theorem argLast_append (t u : List (String × List Word)) (d : String) (h : ∀ x ∈ u, x.1 ≠ d) : argLast (t ++ u) d = argLast t d := by
  unfold argLast
  have : u.filter (fun x => x.1 = d) = [] := by
    rw [List.filter_eq_nil_iff]
    intro x hx
    simpa using h x hx
  rw [List.filter_append, this, List.append_nil]

theorem argValue_sets (l : List Setting) (u : List (String × List Word)) (d : String) (h : ∀ x ∈ u, x.1 ≠ d) :
    argValue (cmdSets l ++ u) d = lastSet l d := by
  unfold argValue lastSet
  rw [argLast_append _ _ _ h]
  unfold argLast
  rw [List.getLast?_eq_head?_reverse, ← List.filter_reverse, List.head?_filter, Option.bind_map]
  rfl

theorem argFlag_sets (l : List Setting) (u : List (String × List Word)) (d : String) (h : ∀ x ∈ u, x.1 ≠ d) :
    argFlag (cmdSets l ++ u) d = true ↔ Given l d := by
  unfold argFlag Given
  rw [List.any_append, Bool.or_eq_true]
  have : (u.any fun x => x.1 = d) = false := by
    rw [List.any_eq_false]
    intro x hx
    simpa using h x hx
  rw [this]
  simp

/-- What settings set. -/
theorem sets_mem {l : List Setting} (hl : ∀ s ∈ l, s.Ok S) {x : String × List Word} (hx : x ∈ cmdSets l) :
    ∃ o ∈ S.opts, x.1 = o.dest ∧ ((o.kind = .flag ∧ x.2 = []) ∨ (o.kind = .value ∧ ∃ v, x.2 = [v] ∧ o.ok v = true)) := by
  obtain ⟨s, hs, hx⟩ := List.mem_flatMap.mp hx
  have h := hl s hs
  cases s with
  | flag o n =>
    obtain rfl : x = (o.dest, []) := by simpa [Setting.sets] using hx
    exact ⟨o, h.1, rfl, Or.inl ⟨h.2.2, rfl⟩⟩
  | pair o n v =>
    obtain rfl : x = (o.dest, [v]) := by simpa [Setting.sets] using hx
    exact ⟨o, h.1, rfl, Or.inr ⟨h.2.2.1, v, rfl, h.2.2.2.1⟩⟩
  | equals o n v =>
    obtain rfl : x = (o.dest, [v]) := by simpa [Setting.sets] using hx
    exact ⟨o, h.1, rfl, Or.inr ⟨h.2.2.1, v, rfl, h.2.2.2⟩⟩
  | letters fs o c v =>
    obtain ⟨h1, h2, h3, h4⟩ := h
    rcases List.mem_append.mp hx with hx | hx
    · obtain ⟨y, hy, rfl⟩ := List.mem_map.mp hx
      exact ⟨y.1, (h1 y hy).1, rfl, Or.inl ⟨(h1 y hy).2.2, rfl⟩⟩
    · obtain rfl : x = (o.dest, if o.kind = .value then [v] else []) := by simpa using hx
      rcases h4 with ⟨hk, rfl⟩ | ⟨hk, _, _, hv⟩
      · exact ⟨o, h2, rfl, Or.inl ⟨hk, by simp [hk]⟩⟩
      · exact ⟨o, h2, rfl, Or.inr ⟨hk, v, by simp [hk], hv⟩⟩

/-- The last value of an option with values, and whether it was given. -/
theorem last_spec {l : List Setting} (hl : ∀ s ∈ l, s.Ok S) (d : String) (ok : Word → Bool)
    (hd : ∀ o ∈ S.opts, o.dest = d → o.kind = .value ∧ o.ok = ok) :
    (lastSet l d = none ∧ ¬ Given l d) ∨ ∃ v, lastSet l d = some v ∧ Given l d ∧ ok v = true := by
  unfold lastSet
  cases hf : (cmdSets l).reverse.find? (fun x => x.1 = d) with
  | none =>
    rw [List.find?_eq_none] at hf
    refine Or.inl ⟨rfl, ?_⟩
    rintro ⟨x, hx, hxd⟩
    exact absurd (hf x (by simpa using hx)) (by simp [hxd])
  | some y =>
    have hy := List.mem_of_find?_eq_some hf
    have hy2 := List.find?_some hf
    simp at hy hy2
    obtain ⟨o, ho, h1, h2⟩ := sets_mem hl hy
    obtain ⟨h3, h4⟩ := hd o ho (h1.symm.trans hy2)
    rcases h2 with ⟨h2, _⟩ | ⟨_, v, h5, h6⟩
    · rw [h3] at h2
      simp at h2
    · exact Or.inr ⟨v, by simp [h5], ⟨y, hy, hy2⟩, h4 ▸ h6⟩

theorem digits_intOf {v : Word} {n : ℕ} (h : Digits v n) (hv : v ≠ []) : intOf v = some (n : Int) := by
  obtain ⟨c, r, rfl⟩ := List.exists_cons_of_ne_nil hv
  have hc := digits_all h c List.mem_cons_self
  unfold intOf
  rw [signOf_digit hc]
  simp [digitsVal_spec h]

theorem isInt_ne {v : Word} (h : isInt v = true) : v ≠ [] := by
  rintro rfl
  simp [isInt, intOf, signOf] at h

theorem takeWhile_imp {α : Type} {p : α → Bool} {l : List α} {x : α} (h : x ∈ l.takeWhile p) : p x = true := by
  induction l with
  | nil => simp at h
  | cons y l ih =>
    rw [List.takeWhile_cons] at h
    split at h
    · rename_i hy
      rcases List.mem_cons.mp h with rfl | h
      · exact hy
      · exact ih h
    · simp at h

theorem takeWhile_eq_part (p v : Word) (h : '=' ∉ p) : (p ++ '=' :: v).takeWhile (· ≠ '=') = p := by
  induction p with
  | nil => simp
  | cons c p ih =>
    rw [List.mem_cons, not_or] at h
    rw [List.cons_append, List.takeWhile_cons, if_pos (by simpa using Ne.symm h.1), ih h.2]

theorem takeWhile_eq_self (w : Word) (h : '=' ∉ w) : w.takeWhile (· ≠ '=') = w := by
  induction w with
  | nil => simp
  | cons c p ih =>
    rw [List.mem_cons, not_or] at h
    rw [List.takeWhile_cons, if_pos (by simpa using Ne.symm h.1), ih h.2]

theorem looksNegative_of {w : Word} (h : looksNegative w = true) (hnl : '\n' ∉ w) : NegNumber w := by
  unfold looksNegative at h
  split at h
  · rename_i r
    have hl : r.getLast? ≠ some '\n' := fun e => hnl (List.mem_cons_of_mem _ (List.mem_of_getLast? e))
    simp only [if_neg hl] at h
    have e := List.takeWhile_append_dropWhile (p := Char.isDigit) (l := r)
    have hI : ∀ c ∈ r.takeWhile Char.isDigit, c.isDigit = true := fun c hc => takeWhile_imp hc
    split at h
    · rename_i h0
      rw [h0, List.append_nil] at e
      refine ⟨r.takeWhile Char.isDigit, [], hI, by simp, Or.inl ⟨by rw [e], by simpa using h⟩⟩
    · rename_i f h0
      rw [h0] at e
      simp at h
      exact ⟨r.takeWhile Char.isDigit, f, hI, fun c hc => h.2 c hc, Or.inr ⟨by rw [e], h.1⟩⟩
    · simp at h
  · simp at h

theorem parse_unknown (hS : GoodSpec S) {w : Word} (h : Unknown S w) : parseOptional S w = some (some ⟨none, w, false, none⟩) := by
  obtain ⟨⟨c, r, rfl, h1⟩, h2, h3, h4, h5⟩ := h
  have hno : ∀ o ∈ S.opts, ∀ n ∈ o.names, ¬ ('-' :: c :: r) <+: n := by
    intro o ho n hn hp
    have he : '=' ∉ '-' :: c :: r := fun hm => (name_head hS ho hn).2.2.1 (hp.subset hm)
    exact (h1 o ho n hn).2 (by rw [takeWhile_eq_self _ he]; exact hp)
  have hfind : S.find ('-' :: c :: r) = none := find_none _ fun o ho n hn e => hno o ho n hn (e ▸ List.prefix_refl _)
  have htup : optionTuples S ('-' :: c :: r) = [] := by
    unfold optionTuples
    by_cases hc : c = '-'
    · rw [if_pos (by simp [hc])]
      rcases partition_cases ('-' :: c :: r) with ⟨h6, h7⟩ | ⟨p, v, h6, h7, h8⟩
      · simp only [h7, List.map_eq_nil_iff, List.filter_eq_nil_iff]
        intro x hx
        rw [List.isPrefixOf_iff_prefix]
        exact hno _ (table_mem hx).1 _ (table_mem hx).2
      · simp only [h8, List.map_eq_nil_iff, List.filter_eq_nil_iff]
        intro x hx
        rw [List.isPrefixOf_iff_prefix]
        have := (h1 _ (table_mem hx).1 _ (table_mem hx).2).2
        rwa [h6, takeWhile_eq_part _ _ h7] at this
    · rw [if_neg (by simpa using hc), List.filterMap_eq_nil_iff]
      intro x hx
      have h6 := (h1 _ (table_mem hx).1 _ (table_mem hx).2).1
      have h7 := hno _ (table_mem hx).1 _ (table_mem hx).2
      rw [if_neg (by simpa using h6), if_neg (by rw [List.isPrefixOf_iff_prefix]; exact h7)]
  have hneg : looksNegative ('-' :: c :: r) = false := by
    by_contra hx
    exact h2 (looksNegative_of (by simpa using hx) h5)
  unfold parseOptional
  rw [if_neg (by simp), hfind]
  simp only
  rw [if_neg (by simp)]
  rcases partition_cases ('-' :: c :: r) with ⟨h6, h7⟩ | ⟨p, v, h6, h7, h8⟩
  · simp [h7, htup, hneg, h4]
  · have : S.find p = none := find_none _ fun o ho n hn e => by
      refine (h1 o ho n hn).2 ?_
      rw [h6, takeWhile_eq_part _ _ h7, e]
    simp [h8, this, htup, hneg, h4]

/-- Words before `--` are looked at one by one. -/
theorem classify_mem {w : Word} {h : OptHit} (hw : w ≠ ['-', '-']) (hp : parseOptional S w = some (some h)) {ws1 ws2 : List Word}
    (hd : ['-', '-'] ∉ ws1) {l : List (ArgCls × Word)} (hc : classify S (ws1 ++ w :: ws2) = some l) : (.o h, w) ∈ l := by
  induction ws1 generalizing l with
  | nil =>
    rw [List.nil_append, classify_opt hw hp] at hc
    cases h2 : classify S ws2 with
    | none => simp [h2] at hc
    | some r =>
      obtain rfl : _ = l := by simpa [h2] using hc
      simp
  | cons v ws1 ih =>
    rw [List.mem_cons, not_or] at hd
    rw [List.cons_append, classify, if_neg (Ne.symm hd.1)] at hc
    split at hc
    · rename_i r _ h2
      obtain rfl : _ = l := by simpa using hc
      exact List.mem_cons_of_mem _ (ih hd.2 h2)
    · rename_i r _ h2
      obtain rfl : _ = l := by simpa using hc
      exact List.mem_cons_of_mem _ (ih hd.2 h2)
    · simp at hc

theorem mem_dropWhile {α : Type} (p : α → Bool) {l : List α} {x : α} (hx : x ∈ l) (hp : p x = false) : x ∈ l.dropWhile p := by
  rw [← List.takeWhile_append_dropWhile (p := p) (l := l)] at hx
  rcases List.mem_append.mp hx with h | h
  · have := takeWhile_imp h
    rw [hp] at this
    simp at this
  · exact h

/-- Positionals leave options alone. -/
theorem matchPos_mem {p : ArgPos} {rest r : List (ArgCls × Word)} {vs : List Word} (h : matchPos p rest = some (vs, r))
    {x : ArgCls × Word} (hx : x ∈ rest) (ho : x.1.isOpt = true) : x ∈ r := by
  have hd : x.1.isDash = false := by
    cases hx1 : x.1 <;> simp_all [ArgCls.isOpt, ArgCls.isDash]
  have h1 := mem_dropWhile (fun x : ArgCls × Word => x.1.isDash) hx hd
  unfold matchPos at h
  simp only at h
  split at h
  · rename_i v r' he
    rw [he] at h1
    simp only [Option.some.injEq, Prod.mk.injEq] at h
    rw [← h.2]
    rcases List.mem_cons.mp h1 with h1 | h1
    · subst h1
      simp [ArgCls.isOpt] at ho
    · exact mem_dropWhile _ h1 hd
  · split at h
    · simp only [Option.some.injEq, Prod.mk.injEq] at h
      rw [← h.2]
      exact h1
    · simp at h

theorem consumePos_mem {ps : List ArgPos} {rest : List (ArgCls × Word)} {x : ArgCls × Word} (hx : x ∈ rest) (ho : x.1.isOpt = true) :
    x ∈ (consumePos ps rest).2.2 := by
  induction ps generalizing rest with
  | nil => exact hx
  | cons p ps ih =>
    unfold consumePos
    split
    · exact hx
    · rename_i vs r h
      exact ih (matchPos_mem h hx ho)

/-- An option takes no options for values. -/
theorem matchArgument_drop {k : ArgKind} {rest : List (ArgCls × Word)} {n : Nat} (h : matchArgument k rest = .ok n)
    {x : ArgCls × Word} (hx : x ∈ rest) (ho : x.1.isOpt = true) : x ∈ rest.drop n := by
  cases k with
  | flag =>
    obtain rfl : 0 = n := by simpa [matchArgument] using h
    exact hx
  | help =>
    obtain rfl : 0 = n := by simpa [matchArgument] using h
    exact hx
  | value =>
    simp only [matchArgument] at h
    split at h
    · obtain rfl : 1 = n := by simpa using h
      rcases List.mem_cons.mp hx with rfl | hx
      · simp [ArgCls.isOpt] at ho
      · exact hx
    · simp at h
  | many =>
    have hn : n = (rest.takeWhile fun x => x.1.isArg).length := by
      simp only [matchArgument] at h
      split at h
      · simp at h
      · simpa using h.symm
    rw [hn]
    have e := List.takeWhile_append_dropWhile (p := fun x : ArgCls × Word => x.1.isArg) (l := rest)
    have hd : rest.drop (rest.takeWhile fun x => x.1.isArg).length = rest.dropWhile fun x => x.1.isArg := by
      conv_lhs => rw [← e]
      rw [List.drop_left']
      rw [e]
    rw [hd]
    refine mem_dropWhile _ hx ?_
    cases hx1 : x.1 <;> simp_all [ArgCls.isOpt, ArgCls.isArg]

theorem consumeOpt_mem {h : OptHit} {w : Word} {rest r' : List (ArgCls × Word)} {t : List (String × List Word)} {ex : List Word}
    (hc : consumeOpt S h w rest = .ok (t, ex, r')) {x : ArgCls × Word} (hx : x ∈ rest) (ho : x.1.isOpt = true) : x ∈ r' := by
  unfold consumeOpt at hc
  split at hc
  · simp only [Except.ok.injEq, Prod.mk.injEq] at hc
    rw [← hc.2.2]
    exact hx
  · split at hc
    · simp at hc
    · split at hc
      · split at hc
        · simp at hc
        · simp only [Except.ok.injEq, Prod.mk.injEq] at hc
          rw [← hc.2.2]
          exact hx
      · split at hc
        · simp at hc
        · rename_i n hn
          split at hc
          · simp at hc
          · simp only [Except.ok.injEq, Prod.mk.injEq] at hc
            rw [← hc.2.2]
            exact matchArgument_drop hn hx ho

/-- An unknown option is left over at the end. -/
theorem loop_unknown {h : OptHit} {w : Word} (hn : h.opt = none) (n : Nat) (rest : List (ArgCls × Word)) (ps : List ArgPos)
    (hx : (.o h, w) ∈ rest) {t : List (String × List Word)} {ex : List Word} {ps' : List ArgPos}
    (hl : argLoop S n rest ps = .ok (t, ex, ps')) : w ∈ ex := by
  induction n generalizing rest ps t ex ps' with
  | zero => simp [argLoop] at hl
  | succ n ih =>
    have hany : rest.any (fun x => x.1.isOpt) = true := List.any_eq_true.mpr ⟨_, hx, rfl⟩
    unfold argLoop at hl
    rw [if_neg (by simp [hany])] at hl
    split at hl
    · rename_i h2 w2 r
      split at hl
      · simp at hl
      · rename_i t1 ex1 r' hc
        split at hl
        · simp at hl
        · rename_i t2 ex2 ps2 hl2
          simp only [Except.ok.injEq, Prod.mk.injEq] at hl
          rw [← hl.2.1, List.mem_append]
          rcases List.mem_cons.mp hx with hx | hx
          · left
            simp only [Prod.mk.injEq, ArgCls.o.injEq] at hx
            obtain ⟨rfl, rfl⟩ := hx
            simp only [consumeOpt, hn, Except.ok.injEq, Prod.mk.injEq] at hc
            rw [← hc.2.1]
            simp
          · exact Or.inr (ih r' ps (consumeOpt_mem hc hx rfl) hl2)
    · simp only at hl
      split at hl
      · split at hl
        · simp at hl
        · rename_i hl2
          simp only [Except.ok.injEq, Prod.mk.injEq] at hl
          rw [← hl.2.1]
          exact ih _ _ (consumePos_mem hx rfl) hl2
      · split at hl
        · simp at hl
        · rename_i hl2
          simp only [Except.ok.injEq, Prod.mk.injEq] at hl
          rw [← hl.2.1, List.mem_append]
          exact Or.inr (ih _ _ (mem_dropWhile _ hx rfl) hl2)

/-- A word that is an ambiguous abbreviation. -/
theorem classify_bad {w : Word} (hw : w ≠ ['-', '-']) (hp : parseOptional S w = none) {ws1 : List Word} (hd : ['-', '-'] ∉ ws1)
    (ws2 : List Word) : classify S (ws1 ++ w :: ws2) = none := by
  induction ws1 with
  | nil =>
    rw [List.nil_append, classify, if_neg hw, hp]
  | cons v ws1 ih =>
    rw [List.mem_cons, not_or] at hd
    rw [List.cons_append, classify, if_neg (Ne.symm hd.1), ih hd.2]
    split <;> simp_all

theorem filter_unique {β : Type} {l : List (Word × β)} (h : (l.map (·.1)).Nodup) {n : Word} {o : β} (hm : (n, o) ∈ l)
    (q : Word × β → Bool) (hq : q (n, o) = true) (hf : ∀ x ∈ l, q x = true → x.1 = n) : l.filter q = [(n, o)] := by
  induction l with
  | nil => simp at hm
  | cons x l ih =>
    rw [List.map_cons, List.nodup_cons] at h
    rcases List.mem_cons.mp hm with rfl | hm
    · rw [List.filter_cons_of_pos hq, List.filter_eq_nil_iff.mpr]
      intro y hy hqy
      exact h.1 (List.mem_map.mpr ⟨y, hy, hf y (List.mem_cons_of_mem _ hy) hqy⟩)
    · rw [List.filter_cons_of_neg, ih h.2 hm fun y hy => hf y (List.mem_cons_of_mem _ hy)]
      intro hqx
      exact h.1 (List.mem_map.mpr ⟨(n, o), hm, (hf x List.mem_cons_self hqx).symm⟩)

/-- A word that is a prefix of exactly one name. -/
theorem parse_abbrev (hS : GoodSpec S) {o : ArgOpt} {n r : Word} (ho : o ∈ S.opts) (hn : n ∈ o.names) (he : '=' ∉ r)
    (hp : '-' :: '-' :: r <+: n) (hu : ∀ o' ∈ S.opts, ∀ n' ∈ o'.names, '-' :: '-' :: r <+: n' → n' = n) :
    parseOptional S ('-' :: '-' :: r) = some (some ⟨some o, n, false, none⟩) := by
  by_cases hne : '-' :: '-' :: r = n
  · rw [hne]
    exact parse_name hS ho hn
  · have hfind : S.find ('-' :: '-' :: r) = none := find_none _ fun o' ho' n' hn' e =>
      hne (e ▸ hu o' ho' n' hn' (e ▸ List.prefix_refl _))
    have he' : '=' ∉ '-' :: '-' :: r := by simpa using he
    have htup : optionTuples S ('-' :: '-' :: r) = [⟨some o, n, false, none⟩] := by
      unfold optionTuples
      rw [if_pos (by simp)]
      simp only [partition_none _ he']
      rw [filter_unique (by rw [table_names]; exact hS.nodup) (mem_table ho hn) _ (by rw [List.isPrefixOf_iff_prefix]; exact hp)
        (fun x hx hq => hu _ (table_mem hx).1 _ (table_mem hx).2 (List.isPrefixOf_iff_prefix.mp hq))]
      rfl
    unfold parseOptional
    rw [if_neg (by simp), hfind]
    simp only
    rw [if_neg (by simp)]
    simp [partition_none _ he', htup]

/-- A word that is a prefix of several names, but not a name. -/
theorem parse_ambiguous {o1 o2 : ArgOpt} {n1 n2 r : Word} (h1 : o1 ∈ S.opts) (hn1 : n1 ∈ o1.names)
    (h2 : o2 ∈ S.opts) (hn2 : n2 ∈ o2.names) (hne : n1 ≠ n2) (he : '=' ∉ r) (hp1 : '-' :: '-' :: r <+: n1)
    (hp2 : '-' :: '-' :: r <+: n2) (hno : ∀ o ∈ S.opts, '-' :: '-' :: r ∉ o.names) : parseOptional S ('-' :: '-' :: r) = none := by
  have hfind : S.find ('-' :: '-' :: r) = none := find_none _ fun o ho n hn e => hno o ho (e ▸ hn)
  have he' : '=' ∉ '-' :: '-' :: r := by simpa using he
  have htup : ∃ a b l, optionTuples S ('-' :: '-' :: r) = a :: b :: l := by
    unfold optionTuples
    rw [if_pos (by simp)]
    simp only [partition_none _ he']
    have m1 : (n1, o1) ∈ S.table.filter fun x => ('-' :: '-' :: r).isPrefixOf x.1 :=
      List.mem_filter.mpr ⟨mem_table h1 hn1, List.isPrefixOf_iff_prefix.mpr hp1⟩
    have m2 : (n2, o2) ∈ S.table.filter fun x => ('-' :: '-' :: r).isPrefixOf x.1 :=
      List.mem_filter.mpr ⟨mem_table h2 hn2, List.isPrefixOf_iff_prefix.mpr hp2⟩
    match hl : S.table.filter fun x => ('-' :: '-' :: r).isPrefixOf x.1 with
    | [] => rw [hl] at m1; simp at m1
    | [x] =>
      rw [hl, List.mem_singleton] at m1 m2
      rw [← m1] at m2
      exact absurd (Prod.mk.inj m2).1.symm hne
    | x :: y :: l => exact ⟨_, _, _, by rw [hl]; rfl⟩
  obtain ⟨a, b, l, htup⟩ := htup
  unfold parseOptional
  rw [if_neg (by simp), hfind]
  simp only
  rw [if_neg (by simp)]
  simp [partition_none _ he', htup]

/-- The loop does not look at the text of a known option. -/
theorem loop_text {h : OptHit} {o : ArgOpt} (hh : h.opt = some o) (w w' : Word) (r : List (ArgCls × Word)) (n : Nat) (ps : List ArgPos) :
    argLoop S n ((.o h, w) :: r) ps = argLoop S n ((.o h, w') :: r) ps := by
  cases n with
  | zero => rfl
  | succ n =>
    have : consumeOpt S h w r = consumeOpt S h w' r := by
      unfold consumeOpt
      rw [hh]
    rw [argLoop, argLoop, if_neg (by simp [ArgCls.isOpt]), if_neg (by simp [ArgCls.isOpt]), this]

end Fp
