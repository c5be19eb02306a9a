import Verif.Model.Stopped
import Verif.Lemmas.Link
/-!
# Tracing a split does not change it
-/

namespace Verif

variable {σ α α' β β' γ γ' : Type}

/-- A traced run and a run: they end in the same way, and a relation holds between the states on the way.  `k` and
`k'` give the state of the disk and the rest of the result. -/
def Follows (R : σ → σ → Prop) (k : α → σ × γ) (k' : α' → Traced σ × γ) (d : Traced σ) (r : Except PyErr α)
    (r' : Except PyErr α') : Prop :=
  match r, r' with
  | .error e, .error e' => e = e'
  | .ok x, .ok x' => (k' x').1.now = (k x).1 ∧ (k' x').2 = (k x).2 ∧ R d.now (k x).1 ∧
      ∃ more, (k' x').1.past = more ++ d.past ∧ ∀ y ∈ more, R d.now y ∧ R y (k x).1
  | _, _ => False

/-- What every operation does to the disk. -/
structure Respects (R : σ → σ → Prop) (fs : OutFS σ) : Prop where
  refl : ∀ a, R a a
  trans : ∀ {a b c}, R a b → R b c → R a c
  newBag : ∀ {d n x}, fs.newBag d n = .ok x → R d x
  finish : ∀ {d n}, R d (fs.finish d n)
  mkdir : ∀ {d p x}, fs.mkdir d p = .ok x → R d x
  makedirs : ∀ {d p x}, fs.makedirs d p = .ok x → R d x
  write : ∀ {d p c x}, fs.write d p c = .ok x → R d x
  append : ∀ {d p c x}, fs.append d p c = .ok x → R d x
  replicate : ∀ {d p x}, fs.replicate d p = .ok x → R d x

/-- The result is a disk. -/
abbrev FollowsD (R : σ → σ → Prop) (d : Traced σ) (r : Except PyErr σ) (r' : Except PyErr (Traced σ)) : Prop :=
  Follows R (fun x => (x, ())) (fun x => (x, ())) d r r'

/-- The result is a state of the loop over a manifest. -/
abbrev FollowsP (R : σ → σ → Prop) (d : Traced σ) (r : Except PyErr (PState σ)) (r' : Except PyErr (PState (Traced σ))) : Prop :=
  Follows R (fun x => (x.disk, (x.count, x.size, x.dest))) (fun x => (x.disk, (x.count, x.size, x.dest))) d r r'

/-- The result is a disk and a lookup table. -/
abbrev FollowsT (R : σ → σ → Prop) (d : Traced σ) (r : Except PyErr (σ × List (Str × Str)))
    (r' : Except PyErr (Traced σ × List (Str × Str))) : Prop :=
  Follows R id id d r r'

variable {R : σ → σ → Prop} {fs : OutFS σ} {d : Traced σ}

theorem Follows.step (rs : Respects R fs) {r : Except PyErr σ} (h : ∀ x, r = .ok x → R d.now x) :
    FollowsD R d r (d.step r) := by
  cases r with
  | error e => rfl
  | ok x =>
    refine ⟨rfl, rfl, h x rfl, [d.now], rfl, ?_⟩
    intro y hy
    rw [List.mem_singleton] at hy
    subst hy
    exact ⟨rs.refl _, h x rfl⟩

theorem Follows.same (rs : Respects R fs) {k : α → σ × γ} {k' : α' → Traced σ × γ} {x : α} {x' : α'} (h1 : (k' x').1 = d)
    (h2 : (k x).1 = d.now) (h3 : (k' x').2 = (k x).2) : Follows R k k' d (.ok x) (.ok x') := by
  refine ⟨by rw [h1, h2], h3, by rw [h2]; exact rs.refl _, [], by rw [h1]; rfl, fun _ h => by cases h⟩

/-- A run followed by another. -/
theorem Follows.bind (rs : Respects R fs) {k : α → σ × γ} {k' : α' → Traced σ × γ} {r : Except PyErr α} {r' : Except PyErr α'}
    (h : Follows R k k' d r r') {g : β → σ × γ'} {g' : β' → Traced σ × γ'} {f : α → Except PyErr β} {f' : α' → Except PyErr β'}
    (hf : ∀ x x', (k' x').1.now = (k x).1 → (k' x').2 = (k x).2 → Follows R g g' (k' x').1 (f x) (f' x')) :
    Follows R g g' d (match (motive := Except PyErr α → Except PyErr β) r with | .error e => .error e | .ok x => f x)
      (match (motive := Except PyErr α' → Except PyErr β') r' with | .error e => .error e | .ok x => f' x) := by
  cases r with
  | error e =>
    cases r' with
    | error e' => exact h
    | ok x' => exact h.elim
  | ok x =>
    cases r' with
    | error e' => exact h.elim
    | ok x' =>
      obtain ⟨h0, h1, h2, more, h3, h4⟩ := h
      have := hf x x' h0 h1
      simp only
      revert this
      cases f x with
      | error e =>
        cases f' x' with
        | error e' => exact id
        | ok y => exact False.elim
      | ok y =>
        cases f' x' with
        | error e' => exact False.elim
        | ok y' =>
          rintro ⟨k1, k1', k2, more', k3, k4⟩
          rw [h0] at k2 k4
          refine ⟨k1, k1', rs.trans h2 k2, more' ++ more, by rw [k3, h3, List.append_assoc], ?_⟩
          intro z hz
          rcases List.mem_append.1 hz with hz | hz
          · exact ⟨rs.trans h2 (k4 z hz).1, (k4 z hz).2⟩
          · exact ⟨(h4 z hz).1, rs.trans (h4 z hz).2 k2⟩

/-- The same, however the sequence is written. -/
theorem Follows.bind' (rs : Respects R fs) {k : α → σ × γ} {k' : α' → Traced σ × γ} {r : Except PyErr α} {r' : Except PyErr α'}
    (h : Follows R k k' d r r') {g : β → σ × γ'} {g' : β' → Traced σ × γ'} {f : α → Except PyErr β} {f' : α' → Except PyErr β'}
    {X : Except PyErr β} {X' : Except PyErr β'} (h1 : ∀ e, r = .error e → X = .error e) (h2 : ∀ x, r = .ok x → X = f x)
    (h3 : ∀ e, r' = .error e → X' = .error e) (h4 : ∀ x, r' = .ok x → X' = f' x)
    (hf : ∀ x x', (k' x').1.now = (k x).1 → (k' x').2 = (k x).2 → Follows R g g' (k' x').1 (f x) (f' x')) :
    Follows R g g' d X X' := by
  have := Follows.bind rs h hf
  cases r with
  | error e =>
    rw [h1 e rfl]
    cases r' with
    | error e' => rw [h3 e' rfl]; exact this
    | ok x' => exact h.elim
  | ok x =>
    rw [h2 x rfl]
    cases r' with
    | error e' => exact h.elim
    | ok x' => rw [h4 x' rfl]; exact this

theorem follows_recordHashes (rs : Respects R fs) (f : Str) (hs : List (Str × Str)) (d : Traced σ) :
    FollowsD R d (recordHashes fs f hs d.now) (recordHashes fs.traced f hs d) := by
  induction hs generalizing d with
  | nil => exact .same rs rfl rfl rfl
  | cons ah hs ih =>
    obtain ⟨a, h⟩ := ah
    refine Follows.bind rs (.step rs (fun x hx => rs.append hx)) ?_
    rintro x x' (rfl : x'.now = x) _
    exact ih x'

theorem follows_ensureDir (rs : Respects R fs) (p : Path) (d : Traced σ) :
    FollowsD R d (ensureDir fs d.now p) (ensureDir fs.traced d p) := by
  unfold ensureDir
  change FollowsD R d (if fs.exists_ d.now p = true then _ else _) (if fs.exists_ d.now p = true then _ else _)
  split
  · exact .same rs rfl rfl rfl
  · exact .step rs (fun x hx => rs.makedirs hx)

theorem follows_putEntry (rs : Respects R fs) (S : Source) (blen : Str → Nat) (n : Str) (s : PState (Traced σ)) (f : Str) :
    FollowsP R s.disk (putEntry fs S blen n ⟨s.disk.now, s.count, s.size, s.dest⟩ f) (putEntry fs.traced S blen n s f) := by
  simp only [putEntry]
  split
  · exact .same rs rfl rfl rfl
  · split
    · refine Follows.bind rs (follows_ensureDir rs _ _) ?_
      rintro x x' (rfl : x'.now = x) _
      exact .same rs rfl rfl rfl
    · refine Follows.bind rs (follows_ensureDir rs _ _) ?_
      rintro x x' (rfl : x'.now = x) _
      refine Follows.bind rs (.step rs (fun x hx => rs.replicate hx)) ?_
      rintro x x' (rfl : x'.now = x) _
      change FollowsP R x' (if fs.isfile x'.now _ = false then _ else _) (if fs.isfile x'.now _ = false then _ else _)
      split
      · rfl
      · refine Follows.bind rs (follows_recordHashes rs _ _ _) ?_
        rintro y y' (rfl : y'.now = y) _
        exact .same rs rfl rfl rfl

theorem follows_putEntries (rs : Respects R fs) (S : Source) (blen : Str → Nat) (n : Str) (l : List Str) (s : PState (Traced σ)) :
    FollowsP R s.disk (putEntries fs S blen n l ⟨s.disk.now, s.count, s.size, s.dest⟩) (putEntries fs.traced S blen n l s) := by
  induction l generalizing s with
  | nil => exact .same rs rfl rfl rfl
  | cons f l ih =>
    simp only [putEntries]
    refine Follows.bind' rs (follows_putEntry rs S blen n s f) (fun e h => by rw [h]) (fun x h => by rw [h]) (fun e h => by rw [h]) (fun x h => by rw [h]) ?_
    rintro ⟨x, c, z, t⟩ x' (rfl : x'.disk.now = x) (h : (x'.count, x'.size, x'.dest) = (c, z, t))
    cases h
    exact ih x'

theorem follows_emptyManifests (rs : Respects R fs) (as : List Str) (d : Traced σ) :
    FollowsD R d (emptyManifests fs as d.now) (emptyManifests fs.traced as d) := by
  induction as generalizing d with
  | nil => exact .same rs rfl rfl rfl
  | cons a as ih =>
    refine Follows.bind rs (.step rs (fun x hx => rs.write hx)) ?_
    rintro x x' (rfl : x'.now = x) _
    exact ih x'

theorem follows_startBag (rs : Respects R fs) (S : Source) (n : Str) (d : Traced σ) :
    FollowsD R d (startBag fs S n d.now) (startBag fs.traced S n d) := by
  refine Follows.bind rs (.step rs (fun x hx => rs.newBag hx)) ?_
  rintro x x' (rfl : x'.now = x) _
  refine Follows.bind rs (.step rs (fun x hx => rs.mkdir hx)) ?_
  rintro x x' (rfl : x'.now = x) _
  refine Follows.bind rs (follows_emptyManifests rs _ _) ?_
  rintro x x' (rfl : x'.now = x) _
  simp only
  split
  · exact .step rs (fun x hx => rs.replicate hx)
  · rfl

theorem follows_writeHeadFiles (rs : Respects R fs) (S : Source) (members : List Str) (dest : List (Str × Str)) (d : Traced σ) :
    FollowsD R d (writeHeadFiles fs S members dest d.now) (writeHeadFiles fs.traced S members dest d) := by
  refine Follows.bind rs (k := fun x => (x, ())) (k' := fun x => (x, ())) ?_ ?_
  · change FollowsD R d (if fs.isdir d.now _ = true then _ else _) (if fs.isdir d.now _ = true then _ else _)
    split
    · exact .same rs rfl rfl rfl
    · exact .step rs (fun x hx => rs.mkdir hx)
  rintro x x' (rfl : x'.now = x) _
  refine Follows.bind rs (.step rs (fun x hx => rs.write hx)) ?_
  rintro x x' (rfl : x'.now = x) _
  refine Follows.bind rs (.step rs (fun x hx => rs.write hx)) ?_
  rintro x x' (rfl : x'.now = x) _
  refine Follows.bind rs (.step rs (fun x hx => rs.write hx)) ?_
  rintro x x' (rfl : x'.now = x) _
  change FollowsD R x' (if (fs.srcRead x'.now _).isSome = true then _ else _) (if (fs.srcRead x'.now _).isSome = true then _ else _)
  split
  · exact .same rs rfl rfl rfl
  · rfl

theorem follows_writeBag (rs : Respects R fs) (S : Source) (blen : Str → Nat) (o : ApplyOpts) (n : Str) (contents : List Str)
    (ishead : Bool) (members : List Str) (dest : List (Str × Str)) (d : Traced σ) :
    FollowsT R d (writeBag fs S blen o n contents ishead members dest d.now)
      (writeBag fs.traced S blen o n contents ishead members dest d) := by
  refine Follows.bind rs (follows_startBag rs S n d) ?_
  rintro x x' (rfl : x'.now = x) _
  simp only
  refine Follows.bind' rs (follows_putEntries rs S blen n contents ⟨x', 0, 0, dest⟩) (fun e h => by rw [h]) (fun x h => by rw [h]) (fun e h => by rw [h]) (fun x h => by rw [h]) ?_
  rintro ⟨x, c, z, t⟩ x' (rfl : x'.disk.now = x) (h : (x'.count, x'.size, x'.dest) = (c, z, t))
  cases h
  simp only
  split
  · rfl
  refine Follows.bind rs (.step rs (fun x hx => rs.write hx)) ?_
  rintro x y (rfl : y.now = x) _
  refine Follows.bind rs (k := fun x => (x, ())) (k' := fun x => (x, ())) ?_ ?_
  · split
    · exact follows_writeHeadFiles rs _ _ _ _
    · exact .same rs rfl rfl rfl
  rintro x y (rfl : y.now = x) _
  refine ⟨rfl, rfl, rs.finish, [y.now], rfl, ?_⟩
  intro z hz
  rw [List.mem_singleton] at hz
  subst hz
  exact ⟨rs.refl _, rs.finish⟩

theorem follows_applyLoop (rs : Respects R fs) (S : Source) (blen : Str → Nat) (o : ApplyOpts) (plan : List Manifest)
    (names members : List Str) (dest : List (Str × Str)) (d : Traced σ) :
    FollowsD R d (applyLoop fs S blen o plan names members dest d.now)
      (applyLoop fs.traced S blen o plan names members dest d) := by
  induction plan generalizing names members dest d with
  | nil => exact .same rs rfl rfl rfl
  | cons m plan ih =>
    simp only [applyLoop]
    split
    · rfl
    rename_i n _
    refine Follows.bind' rs (follows_writeBag rs S blen o n m.contents plan.isEmpty (moveToEnd members n) dest d)
      (f := fun x => applyLoop fs S blen o plan names.tail (moveToEnd members n) x.2 x.1)
      (f' := fun x => applyLoop fs.traced S blen o plan names.tail (moveToEnd members n) x.2 x.1)
      (fun e h => by rw [h]) (fun x h => by rw [h]) (fun e h => by rw [h]) (fun x h => by rw [h]) ?_
    rintro ⟨x, t⟩ ⟨x', t'⟩ (rfl : x'.now = x) (rfl : t' = t)
    exact ih _ _ _ _

/-- The traced run ends as the run does, and every state on the way is between the first and the last. -/
theorem applyStates_between (rs : Respects R fs) {S : Source} {blen : Str → Nat} {o : ApplyOpts} {plan : List Manifest}
    {names : List Str} {d d' : σ} (h : applyPlan fs S blen o plan names d = .ok d') :
    d' ∈ applyStates fs S blen o plan names d ∧ ∀ x ∈ applyStates fs S blen o plan names d, R d x ∧ R x d' := by
  have key : FollowsD R ⟨d, []⟩ (applyPlan fs S blen o plan names d) (applyPlan fs.traced S blen o plan names ⟨d, []⟩) := by
    unfold applyPlan
    split
    · rfl
    · exact follows_applyLoop rs _ _ _ _ _ _ _ _
  unfold applyStates
  rw [h] at key
  revert key
  cases applyPlan fs.traced S blen o plan names ⟨d, []⟩ with
  | error e => exact False.elim
  | ok t =>
    rintro ⟨h1, _, h2, more, h3, h4⟩
    simp only [List.append_nil] at h1 h2 h3 h4
    simp only [Traced.states, h1, h3]
    refine ⟨List.mem_cons_self, ?_⟩
    intro x hx
    rcases List.mem_cons.1 hx with rfl | hx
    · exact ⟨h2, rs.refl _⟩
    · exact h4 x hx

/-! ## Links -/

/-- The states of two traced disks look the same, now and at each time before. -/
def TracedSim (L : Path → Prop) (c : Traced CopyDisk) (l : Traced LinkDisk) : Prop :=
  Sim L c.now l.now ∧ Forall₂ (fun a b => ∃ L, Sim L a b) c.past l.past

theorem tracedSim_step {L L' : Path → Prop} {c c' : Traced CopyDisk} {l : Traced LinkDisk} (h : TracedSim L c l)
    {r : Except PyErr CopyDisk} {r' : Except PyErr LinkDisk} (hc : c.step r = .ok c')
    (hr : ∀ x, r = .ok x → ∃ y, r' = .ok y ∧ Sim L' x y ∧ y.canLink = l.now.canLink) :
    ∃ l', l.step r' = .ok l' ∧ TracedSim L' c' l' ∧ l'.now.canLink = l.now.canLink := by
  cases r with
  | error e => cases hc
  | ok x =>
    obtain ⟨y, rfl, h1, h2⟩ := hr x rfl
    cases hc
    exact ⟨_, rfl, ⟨h1, .cons ⟨L, h.1⟩ h.2⟩, h2⟩

theorem traced_simulates : Simulates copyFS.traced linkFS.traced (fun c l => ∃ L, TracedSim L c l) (fun _ => TracedSim)
    (fun l => l.now.canLink) (fun _ => True) (fun _ => True) where
  exists_eq {_ _ _ _ p} _ s := s.1.exists_eq p
  isdir_eq {_ _ _ _ p} _ s := s.1.isdir_eq p
  isfile_eq {_ _ _ _ p} _ s := s.1.isfile_eq p
  read_eq {_ _ _ _ p} _ s := s.1.read_eq p
  srcRead_eq {_ _ _ _ p} _ s := s.1.srcRead_eq p
  mkdir {b _ _ _ _ _} _ s h := tracedSim_step s h (fun _ hx => link_simulates.mkdir (b := b) trivial s.1 hx)
  makedirs {b _ _ _ _ _} _ s h := tracedSim_step s h (fun _ hx => link_simulates.makedirs (b := b) trivial s.1 hx)
  write {b _ _ _ _ _ _} _ s hL h := tracedSim_step s h (fun _ hx => link_simulates.write (b := b) trivial s.1 hL hx)
  append {b _ _ _ _ _ _} _ s hL h := tracedSim_step s h (fun _ hx => link_simulates.append (b := b) trivial s.1 hL hx)
  replicate {b _ _ _ _ _} _ s hL h := tracedSim_step s h (fun _ hx => link_simulates.replicate (b := b) trivial s.1 hL hx)
  newBag {_ _ _ n} L' s _ h := by
    obtain ⟨L, s⟩ := s
    exact tracedSim_step s h (fun _ hx => link_simulates.newBag (n := n) L' ⟨L, s.1⟩ trivial hx)
  finish {n _ _ _} s := by
    obtain ⟨L, h⟩ := (link_simulates.finish (n := n) s.1).1
    exact ⟨⟨L, h, .cons ⟨_, s.1⟩ s.2⟩, rfl⟩

end Verif
