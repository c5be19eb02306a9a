import Verif.Spec.Links
import Verif.Lemmas.Walk
import Verif.Lemmas.Plan
import Verif.Props.Paths
/-!
# Following symbolic links
-/

namespace Verif

open Spec

namespace SDisk

theorem leg_cons (d : SDisk) (cur : Path) (c : Str) (cs : List Str) :
    d.leg cur (c :: cs) =
      if d.realDir cur = false then .gone
      else if c = [] ∨ c = ['.'] then d.leg cur cs
      else if c = ['.', '.'] then d.leg cur.dropLast cs
      else match dget d (cur ++ [c]) with
        | none => .gone
        | some (.link t) => .link cur t cs
        | some _ => d.leg (cur ++ [c]) cs := rfl

/-- One leg of a path, with further components behind. -/
def Leg.more (d : SDisk) (ds : List Str) : Leg → Leg
  | .gone => .gone
  | .here p => d.leg p ds
  | .link dir t rest => .link dir t (rest ++ ds)

theorem leg_append (d : SDisk) (ds : List Str) : ∀ (cs : List Str) (cur : Path),
    d.leg cur (cs ++ ds) = Leg.more d ds (d.leg cur cs)
  | [], cur => rfl
  | c :: cs, cur => by
    rw [List.cons_append, leg_cons, leg_cons]
    by_cases h : d.realDir cur = false
    · simp only [h, if_true]; rfl
    · rw [if_neg h, if_neg h]
      by_cases h1 : c = [] ∨ c = ['.']
      · rw [if_pos h1, if_pos h1]; exact leg_append d ds cs cur
      · rw [if_neg h1, if_neg h1]
        by_cases h2 : c = ['.', '.']
        · rw [if_pos h2, if_pos h2]; exact leg_append d ds cs cur.dropLast
        · rw [if_neg h2, if_neg h2]
          cases hn : dget d (cur ++ [c]) with
          | none => rfl
          | some n =>
            cases n with
            | link t => rfl
            | dir => exact leg_append d ds cs (cur ++ [c])
            | file x => exact leg_append d ds cs (cur ++ [c])

theorem leg_nonempty {d : SDisk} {p : Path} {ds : List Str} (h : ds ≠ []) (hl : d.leg p ds ≠ .gone) : d.realDir p = true := by
  cases ds with
  | nil => exact absurd rfl h
  | cons c cs =>
    cases hr : d.realDir p with
    | true => rfl
    | false => rw [leg_cons, hr] at hl; simp at hl

theorem trace_zero (d : SDisk) (cur : Path) (cs : List Str) :
    d.trace 0 cur cs = match d.leg cur cs with | .here p => some p | _ => none := rfl

theorem trace_succ (d : SDisk) (n : Nat) (cur : Path) (cs : List Str) :
    d.trace (n + 1) cur cs = match d.leg cur cs with
      | .gone => none
      | .here p => some p
      | .link dir t rest => d.trace n (linkStart dir t) (splitOn '/' t ++ rest) := rfl

theorem trace_here {d : SDisk} {n : Nat} {cur p : Path} {cs : List Str} (h : d.leg cur cs = .here p) : d.trace n cur cs = some p := by
  cases n with
  | zero => rw [trace_zero, h]
  | succ n => rw [trace_succ, h]

theorem trace_gone {d : SDisk} {n : Nat} {cur : Path} {cs : List Str} (h : d.leg cur cs = .gone) : d.trace n cur cs = none := by
  cases n with
  | zero => rw [trace_zero, h]
  | succ n => rw [trace_succ, h]

/-- Whatever is not the end of a path leads to a directory. -/
theorem trace_prefix {d : SDisk} : ∀ (n : Nat) {cur p : Path} {cs ds : List Str}, d.trace n cur (cs ++ ds) = some p → ds ≠ [] →
    ∃ q, d.trace n cur cs = some q ∧ d.realDir q = true := by
  intro n
  induction n with
  | zero =>
    intro cur p cs ds h hne
    rw [trace_zero, leg_append] at h
    cases hl : d.leg cur cs with
    | gone => rw [hl] at h; cases h
    | link dir t rest => rw [hl] at h; cases h
    | here q =>
      rw [hl] at h
      refine ⟨q, trace_here hl, leg_nonempty hne ?_⟩
      intro e
      simp only [Leg.more, e] at h
      cases h
  | succ n ih =>
    intro cur p cs ds h hne
    rw [trace_succ, leg_append] at h
    cases hl : d.leg cur cs with
    | gone => rw [hl] at h; cases h
    | here q =>
      rw [hl] at h
      refine ⟨q, trace_here hl, leg_nonempty hne ?_⟩
      intro e
      simp only [Leg.more, e] at h
      cases h
    | link dir t rest =>
      rw [hl] at h
      simp only [Leg.more] at h
      rw [← List.append_assoc] at h
      obtain ⟨q, h1, h2⟩ := ih h hne
      exact ⟨q, by rw [trace_succ, hl]; exact h1, h2⟩

end SDisk

open SDisk

theorem Spec.WfDisk.key {d : SDisk} (h : WfDisk d) {p : Path} {n : SNode} (hp : dget d p = some n) :
    GoodPath p ∧ d.realDir p.dropLast = true := by
  have hk := mem_dkeys_iff.2 ⟨n, hp⟩
  refine ⟨h.good p hk, ?_⟩
  unfold SDisk.realDir
  rcases h.parent p hk with e | e
  · simp [e]
  · simp [e]

/-- A directory of the disk is found at its own path. -/
theorem leg_dir {d : SDisk} (h : WfDisk d) : ∀ (m : Nat) (p : Path), p.length = m → d.realDir p = true → d.leg [] p = .here p := by
  intro m
  induction m with
  | zero =>
    intro p hp _
    have : p = [] := List.length_eq_zero_iff.1 hp
    subst this
    rfl
  | succ m ih =>
    intro p hp hr
    have hne : p ≠ [] := by rintro rfl; simp at hp
    have hd : dget d p = some .dir := by simpa [SDisk.realDir, hne] using hr
    obtain ⟨hg, hpar⟩ := h.key hd
    have hsplit : p = p.dropLast ++ [p.getLast hne] := (List.dropLast_concat_getLast hne).symm
    have hname := hg.2 _ (List.getLast_mem hne)
    have := ih p.dropLast (by simp [hp]) hpar
    rw [hsplit, leg_append, this]
    simp only [Leg.more]
    rw [leg_cons, if_neg (by rw [hpar]; simp), if_neg (by simp [hname.nonempty, hname.nodot]), if_neg hname.nodotdot, ← hsplit, hd]
    rfl

/-- What is met at the end of a path in a directory. -/
theorem leg_entry {d : SDisk} (h : WfDisk d) {x : Path} {c : Str} (hx : d.realDir x = true) (hc : GoodName c) :
    d.leg [] (x ++ [c]) = match dget d (x ++ [c]) with
      | none => .gone
      | some (.link t) => .link x t []
      | some _ => .here (x ++ [c]) := by
  rw [leg_append, leg_dir h _ x rfl hx]
  simp only [Leg.more]
  rw [leg_cons, if_neg (by rw [hx]; simp), if_neg (by simp [hc.nonempty, hc.nodot]), if_neg hc.nodotdot]
  rfl

theorem leg_more_entry {d : SDisk} (h : WfDisk d) {x : Path} {c : Str} (hx : d.realDir x = true) (hc : GoodName c) (ds : List Str) :
    d.leg [] (x ++ [c] ++ ds) = match dget d (x ++ [c]) with
      | none => .gone
      | some (.link t) => .link x t ds
      | some _ => d.leg (x ++ [c]) ds := by
  rw [leg_append, leg_entry h hx hc]
  cases dget d (x ++ [c]) with
  | none => rfl
  | some n => cases n <;> rfl

theorem stat_real {d : SDisk} (h : WfDisk d) {p : Path} {n : SNode} (hp : dget d p = some n) (hn : ∀ t, n ≠ .link t) :
    d.stat p = some n := by
  obtain ⟨hg, hpar⟩ := h.key hp
  have hsplit : p = p.dropLast ++ [p.getLast hg.1] := (List.dropLast_concat_getLast hg.1).symm
  have hl := leg_entry h hpar (hg.2 _ (List.getLast_mem hg.1))
  rw [← hsplit, hp] at hl
  unfold SDisk.stat
  rw [trace_here (p := p) (by cases n with
    | link t => exact absurd rfl (hn t)
    | dir => exact hl
    | file c => exact hl)]
  show d.node p = some n
  unfold SDisk.node
  rw [if_neg hg.1, hp]

theorem stat_none {d : SDisk} (h : WfDisk d) {x : Path} {c : Str} (hx : d.realDir x = true) (hc : GoodName c)
    (hn : dget d (x ++ [c]) = none) : d.stat (x ++ [c]) = none := by
  unfold SDisk.stat
  rw [trace_gone (by rw [leg_entry h hx hc, hn])]
  rfl

theorem mem_names {d : SDisk} (h : WfDisk d) {x : Path} {n : Str} : n ∈ d.names x ↔ ∃ v, dget d (x ++ [n]) = some v := by
  unfold SDisk.names
  rw [List.mem_filterMap]
  constructor
  · rintro ⟨⟨p, v⟩, hm, he⟩
    simp only at he
    split at he
    · rename_i hd
      have hg := (dget_iff_mem h.nodup).2 hm
      have hne := (h.key hg).1.1
      rw [List.getLast?_eq_some_getLast hne] at he
      injection he with he
      subst hd he
      rw [List.dropLast_concat_getLast hne]
      exact ⟨v, hg⟩
    · cases he
  · rintro ⟨v, hv⟩
    exact ⟨(x ++ [n], v), (dget_iff_mem h.nodup).1 hv, by simp⟩

theorem mem_walked {d : SDisk} (h : WfDisk d) {bag x : Path} (hb : d.realDir bag = true) :
    x ∈ d.walked bag ↔ ∃ q, x = bag ++ q ∧ d.realDir x = true := by
  unfold SDisk.walked
  rw [List.mem_cons, List.mem_map]
  constructor
  · rintro (rfl | ⟨⟨p, v⟩, hm, rfl⟩)
    · exact ⟨[], by simp, hb⟩
    · rw [List.mem_filter] at hm
      obtain ⟨hm, hc⟩ := hm
      simp only [Bool.and_eq_true, decide_eq_true_eq, ne_eq] at hc
      obtain ⟨⟨hv, hp⟩, _⟩ := hc
      obtain ⟨q, hq⟩ := List.isPrefixOf_iff_prefix.1 hp
      subst hv
      exact ⟨q, hq.symm, by simp [SDisk.realDir, (dget_iff_mem h.nodup).2 hm]⟩
  · rintro ⟨q, rfl, hr⟩
    by_cases hq : q = []
    · left; simp [hq]
    · right
      have hd : dget d (bag ++ q) = some .dir := by simpa [SDisk.realDir, hq] using hr
      refine ⟨(bag ++ q, .dir), ?_, rfl⟩
      rw [List.mem_filter]
      refine ⟨(dget_iff_mem h.nodup).1 hd, ?_⟩
      simp [hq, List.isPrefixOf_iff_prefix]

theorem mem_files {d : SDisk} (h : WfDisk d) {x : Path} {n : Str} :
    n ∈ d.files x ↔ (∃ v, dget d (x ++ [n]) = some v) ∧ d.stat (x ++ [n]) ≠ some .dir := by
  unfold SDisk.files
  rw [List.mem_filter, mem_names h]
  simp

theorem mem_subdirs {d : SDisk} (h : WfDisk d) {x : Path} {n : Str} :
    n ∈ d.subdirs x ↔ (∃ v, dget d (x ++ [n]) = some v) ∧ d.stat (x ++ [n]) = some .dir := by
  unfold SDisk.subdirs
  rw [List.mem_filter, mem_names h]
  simp

theorem no_names {d : SDisk} (h : WfDisk d) {x : Path} :
    (d.subdirs x = [] ∧ d.files x = []) ↔ ∀ n, dget d (x ++ [n]) = none := by
  constructor
  · rintro ⟨h1, h2⟩ n
    cases hv : dget d (x ++ [n]) with
    | none => rfl
    | some v =>
      by_cases hs : d.stat (x ++ [n]) = some .dir
      · have : n ∈ d.subdirs x := (mem_subdirs h).2 ⟨⟨v, hv⟩, hs⟩
        rw [h1] at this; cases this
      · have : n ∈ d.files x := (mem_files h).2 ⟨⟨v, hv⟩, hs⟩
        rw [h2] at this; cases this
  · intro hn
    constructor
    · rw [List.eq_nil_iff_forall_not_mem]
      intro n hm
      obtain ⟨⟨v, hv⟩, _⟩ := (mem_subdirs h).1 hm
      rw [hn n] at hv; cases hv
    · rw [List.eq_nil_iff_forall_not_mem]
      intro n hm
      obtain ⟨⟨v, hv⟩, _⟩ := (mem_files h).1 hm
      rw [hn n] at hv; cases hv

theorem bagStat_plain {d : SDisk} {bagdir : Str} {bag q : Path} (hb : AbsPath bagdir bag) (hq : GoodPath q) :
    d.bagStat bagdir (joinPath q) = d.stat (bag ++ q) := by
  have hh : (joinPath q).head? ≠ some '/' := by
    intro e
    have := splitOn_joinPath' hq
    cases hj : joinPath q with
    | nil => rw [hj] at e; cases e
    | cons x xs =>
      rw [hj] at e this
      simp at e
      subst e
      rw [splitOn_cons_sep] at this
      have : [] ∈ q := by rw [← this]; simp
      exact (hq.2 _ this).nonempty rfl
  have hl : leadsTo bag (joinPath q) = bag ++ q := by
    unfold leadsTo
    rw [if_neg hh, splitOn_joinPath' hq, follow_good _ hq.2]
  unfold SDisk.bagStat
  rw [C67_inside_accepted hb hh (by rw [hl]; exact List.prefix_append _ _), hl]
  show d.stat (comps ('/' :: joinPath (bag ++ q))) = _
  rw [comps_abs]
  intro c hc
  rcases List.mem_append.1 hc with hc | hc
  · exact hb.1.2 c hc
  · exact hq.2 c hc

/-! ## Staying in the bag -/

theorem leg_inside {d : SDisk} {bag : Path} : ∀ (cs : List Str) (cur : Path), bag <+: cur → ['.', '.'] ∉ cs →
    (∀ p, d.leg cur cs = .here p → bag <+: p) ∧
    (∀ dir t rest, d.leg cur cs = .link dir t rest → bag <+: dir ∧ ['.', '.'] ∉ rest ∧ ∃ c, dget d (dir ++ [c]) = some (.link t))
  | [], cur, hp, _ => ⟨fun p h => by cases h; exact hp, fun dir t rest h => by cases h⟩
  | c :: cs, cur, hp, hn => by
    have hn' : ['.', '.'] ∉ cs := fun h => hn (List.mem_cons_of_mem _ h)
    have hc : c ≠ ['.', '.'] := fun h => hn (by simp [h])
    rw [leg_cons]
    by_cases h : d.realDir cur = false
    · rw [if_pos h]; exact ⟨fun p h => (by cases h), fun dir t rest h => by cases h⟩
    · rw [if_neg h]
      by_cases h1 : c = [] ∨ c = ['.']
      · rw [if_pos h1]; exact leg_inside cs cur hp hn'
      · rw [if_neg h1, if_neg hc]
        have ih := leg_inside (d := d) cs (cur ++ [c]) (hp.trans (List.prefix_append _ _)) hn'
        cases hv : dget d (cur ++ [c]) with
        | none => exact ⟨fun p h => (by cases h), fun dir t rest h => by cases h⟩
        | some n =>
          cases n with
          | link t =>
            refine ⟨fun p h => (by cases h), fun dir t' rest h => ?_⟩
            cases h
            exact ⟨hp, hn', c, hv⟩
          | dir => exact ih
          | file x => exact ih

theorem trace_inside {d : SDisk} {bag : Path} (hl : LinksInside d bag) : ∀ (n : Nat) (cur : Path) (cs : List Str), bag <+: cur →
    ['.', '.'] ∉ cs → ∀ p, d.trace n cur cs = some p → bag <+: p := by
  intro n
  induction n with
  | zero =>
    intro cur cs hp hn p h
    rw [trace_zero] at h
    cases hg : d.leg cur cs with
    | gone => rw [hg] at h; cases h
    | link dir t rest => rw [hg] at h; cases h
    | here q => rw [hg] at h; cases h; exact (leg_inside cs cur hp hn).1 _ hg
  | succ n ih =>
    intro cur cs hp hn p h
    rw [trace_succ] at h
    cases hg : d.leg cur cs with
    | gone => rw [hg] at h; cases h
    | here q => rw [hg] at h; cases h; exact (leg_inside cs cur hp hn).1 _ hg
    | link dir t rest =>
      rw [hg] at h
      simp only at h
      obtain ⟨h1, h2, c, h3⟩ := (leg_inside cs cur hp hn).2 _ _ _ hg
      obtain ⟨q, rfl⟩ := h1
      rw [List.append_assoc] at h3
      obtain ⟨h4, h5⟩ := hl _ _ h3
      refine ih _ _ ?_ ?_ p h
      · unfold linkStart
        have : startsWith ['/'] t = false := by
          cases t with
          | nil => rfl
          | cons x xs =>
            simp at h4
            simp [startsWith, List.isPrefixOf, Ne.symm h4]
        rw [this]
        exact List.prefix_append _ _
      · intro hm
        rcases List.mem_append.1 hm with hm | hm
        · exact h5 hm
        · exact h2 hm

theorem sizes_ok {size : SNode → Nat} {d : SDisk} : ∀ {ps : List Path}, (∃ s, d.sizes size ps = .ok s) ↔ ∀ p ∈ ps, d.stat p ≠ none
  | [] => by simp [SDisk.sizes]
  | p :: ps => by
    have ih := sizes_ok (size := size) (d := d) (ps := ps)
    unfold SDisk.sizes
    cases hs : d.stat p with
    | none => simp [hs]
    | some n =>
      simp only [List.mem_cons, forall_eq_or_imp, hs, ne_eq, reduceCtorEq, not_false_eq_true, true_and]
      cases hr : d.sizes size ps with
      | error e => rw [hr] at ih; simpa using ih
      | ok s => rw [hr] at ih; simpa using ih

theorem sizes_error {size : SNode → Nat} {d : SDisk} : ∀ {ps : List Path} {e : PyErr}, d.sizes size ps = .error e → e = .osError
  | [], e, h => by cases h
  | p :: ps, e, h => by
    unfold SDisk.sizes at h
    cases hs : d.stat p with
    | none => rw [hs] at h; cases h; rfl
    | some n =>
      rw [hs] at h
      simp only at h
      cases hr : d.sizes size ps with
      | error e' => rw [hr] at h; cases h; exact sizes_error hr
      | ok s => rw [hr] at h; cases h

end Verif
