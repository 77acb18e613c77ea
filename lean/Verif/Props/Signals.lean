import Verif.Lemmas.Signals
/-
C83: signals are acted upon.
-/
set_option linter.unusedVariables false
namespace Babel

/-- SIGTERM, SIGHUP and SIGINT, whenever they arrive and whatever other signals arrive: the loop is left after at most 8 steps, and
`select` returns at most once more. -/
theorem C83_exit (w : Watch) (s : Signo) (hs : s = .term ∨ s = .hup ∨ s = .int) (l : List WatchAct) :
    (8 ≤ Spec.steps l → (w.run (.sig s :: l)).place = .left) ∧ (w.run (.sig s :: l)).turns ≤ w.turns + 1 := by
  have he : (w.act (.sig s)).exiting = true := by rcases hs with rfl | rfl | rfl <;> rfl
  constructor
  · intro hl
    exact exit_run l _ he (Nat.le_trans (by cases (w.act (.sig s)).place <;> simp [Place.toExit]) hl)
  · rw [watchRun_cons]
    refine Nat.le_trans (exit_turns l _ he) ?_
    have : (w.act (.sig s)).turns = w.turns := by rcases hs with rfl | rfl | rfl <;> rfl
    rw [this]
    split <;> omega

/-- The loop is left only if one of these signals has arrived, or the log file could not be opened again. -/
theorem C83_stays (l : List WatchAct) (h : (({} : Watch).run l).place = .left) :
    .sig .term ∈ l ∨ .sig .hup ∈ l ∨ .sig .int ∈ l ∨ (.sig .usr2 ∈ l ∧ ∃ d, .go d false ∈ l) := by
  have key : ∀ (l : List WatchAct) (w : Watch), (w.run l).place = .left → w.place = .left ∨ w.exiting = true ∨
      ((w.reopening = true ∨ w.place = .reopen) ∧ ∃ d, .go d false ∈ l) ∨
      .sig .term ∈ l ∨ .sig .hup ∈ l ∨ .sig .int ∈ l ∨ (.sig .usr2 ∈ l ∧ ∃ d, .go d false ∈ l) := by
    intro l
    induction l with
    | nil => intro w h; exact Or.inl h
    | cons a l ih =>
      intro w h
      rw [watchRun_cons] at h
      have hh := ih _ h
      cases a with
      | sig s => cases s <;> simp [Watch.act, Watch.signal] at hh ⊢ <;> grind
      | go d ok =>
        unfold Watch.act Watch.go at hh
        rcases w with ⟨e, r, dm, p, _, _, _⟩
        cases p <;> simp at hh ⊢ <;> grind
  have := key l {} h
  simpa using this

/-- SIGUSR1: the tables are dumped within 7 steps, unless the loop is left.  This holds unless the signal arrives between a dump and
the resetting of the flag; in that case nothing has changed since that dump. -/
theorem C83_dump (w : Watch) (hc : w.place ≠ .clearDump) (l : List WatchAct) (hl : 7 ≤ Spec.steps l) :
    (w.run (.sig .usr1 :: l)).place = .left ∨ w.dumps < (w.run (.sig .usr1 :: l)).dumps := by
  refine dump_run l (w.act (.sig .usr1)) rfl hc (Nat.le_trans ?_ hl)
  show w.place.toDump ≤ 7
  cases hp : w.place <;> simp [Place.toDump] <;> exact absurd hp hc

/-- SIGUSR2: the log file is opened again within 7 steps, unless the loop is left.  This holds unless the signal arrives between the
opening of the file and the resetting of the flag. -/
theorem C83_reopen (w : Watch) (hc : w.place ≠ .clearReopen) (l : List WatchAct) (hl : 7 ≤ Spec.steps l) :
    (w.run (.sig .usr2 :: l)).place = .left ∨ w.opens < (w.run (.sig .usr2 :: l)).opens := by
  refine open_run l (w.act (.sig .usr2)) rfl hc (Nat.le_trans ?_ hl)
  show w.place.toOpen ≤ 7
  cases hp : w.place <;> simp [Place.toOpen] <;> exact absurd hp hc

/-- In that case the signal is lost: however long the daemon runs, it goes on writing to the file that was opened before the signal. -/
theorem C83_reopen_false (w : Watch) (hc : w.place = .clearReopen) (d ok : Bool) (l : List WatchAct) (hl : .sig .usr2 ∉ l) :
    (w.run (.sig .usr2 :: .go d ok :: l)).opens = w.opens := by
  have key : ∀ (l : List WatchAct) (w : Watch), .sig .usr2 ∉ l → w.reopening = false → w.place ≠ .reopen → w.place ≠ .clearReopen →
      (w.run l).opens = w.opens := by
    intro l
    induction l with
    | nil => intro w _ _ _ _; rfl
    | cons a l ih =>
      intro w hn hr hp hq
      rw [watchRun_cons]
      have h1 : (w.act a).opens = w.opens ∧ (w.act a).reopening = false ∧ (w.act a).place ≠ .reopen ∧ (w.act a).place ≠ .clearReopen := by
        cases a with
        | sig s => cases s <;> simp [Watch.act, Watch.signal, hr, hp, hq] at hn ⊢
        | go d ok =>
          unfold Watch.act Watch.go
          rcases w with ⟨e, r, dm, p, _, _, _⟩
          simp only at hr
          subst hr
          cases p <;> simp at hp hq ⊢
          · cases e <;> simp
          · cases d <;> cases dm <;> simp
      rw [ih _ (fun h => hn (List.mem_cons_of_mem _ h)) h1.2.1 h1.2.2.1 h1.2.2.2, h1.1]
  rw [watchRun_cons, watchRun_cons]
  have e : (w.act (.sig .usr2)).act (.go d ok) = { w with place := .testDump, reopening := false } := by
    unfold Watch.act Watch.go Watch.signal; simp [hc]
  rw [e, key l _ hl rfl (by simp) (by simp)]

/-- Without signals, and without debugging, nothing of the kind is done. -/
theorem C83_quiet (l : List WatchAct) (h : ∀ a ∈ l, a = .sig .pipe ∨ ∃ ok, a = .go false ok) :
    (({} : Watch).run l).opens = 0 ∧ (({} : Watch).run l).dumps = 0 ∧ (({} : Watch).run l).place ≠ .left := by
  have key : ∀ (l : List WatchAct) (w : Watch), (∀ a ∈ l, a = .sig .pipe ∨ ∃ ok, a = .go false ok) → w.exiting = false →
      w.reopening = false → w.dumping = false →
      w.opens = 0 → w.dumps = 0 → (w.place = .wait ∨ w.place = .testExit ∨ w.place = .testReopen ∨ w.place = .testDump) →
      (w.run l).opens = 0 ∧ (w.run l).dumps = 0 ∧ (w.run l).place ≠ .left := by
    intro l
    induction l with
    | nil =>
      intro w _ _ _ _ h1 h2 h3
      refine ⟨h1, h2, ?_⟩
      show w.place ≠ .left
      rcases h3 with h | h | h | h <;> rw [h] <;> simp
    | cons a l ih =>
      intro w hl he hr hd h1 h2 h3
      rw [watchRun_cons]
      have hl' := fun a h => hl a (List.mem_cons_of_mem _ h)
      rcases hl a (List.mem_cons_self ..) with rfl | ⟨ok, rfl⟩
      · exact ih _ hl' he hr hd h1 h2 h3
      · rcases w with ⟨e, r, dm, p, _, _, _⟩
        simp only at he hr hd h1 h2 h3
        subst he hr hd h1 h2
        rcases h3 with rfl | rfl | rfl | rfl <;> exact ih _ hl' rfl rfl rfl rfl rfl (by simp [Watch.act, Watch.go])
  exact key l {} h rfl rfl rfl rfl rfl (Or.inl rfl)

/-- When the log file has been opened again, both outputs go to the new file, and no other descriptor is open.  If there is no log file
nothing changes. -/
theorem C83_logfile (r : Reopen) (l : LogFds) (hf : ∀ n, r.file = some n → 2 < n) :
    reopenLogfile false r l = (0, l) ∧
    ((reopenLogfile true r l).1 = 1 ↔ r.file.isSome = true ∧ r.out = true ∧ r.err = true) ∧
    (∀ n, r.file = some n → r.out = true → r.err = true → reopenLogfile true r l = (1, { l with out := some n, err := some n })) ∧
    ((reopenLogfile true r l).1 = 1 ∨ (reopenLogfile true r l).1 = -1) := by
  rcases r with ⟨f, a, b⟩
  refine ⟨rfl, ?_, ?_, ?_⟩
  · cases f <;> cases a <;> cases b <;> simp [reopenLogfile]
  · intro n h1 h2 h3
    simp only at h1 h2 h3
    subst h1 h2 h3
    have := hf n rfl
    simp [reopenLogfile, this]
  · cases f <;> cases a <;> cases b <;> simp [reopenLogfile]

/-- If `dup2` fails, the descriptor of the file remains open (the daemon then exits). -/
theorem C83_leak_false : ∃ r l, (∀ n, r.file = some n → 2 < n) ∧ l.extra = [] ∧ (reopenLogfile true r l).2.extra ≠ [] :=
  ⟨⟨some 7, true, false⟩, {}, by intro n h; cases h; decide, rfl, by decide⟩

/-- The tables are dumped at most once, and the log file is opened at most once, each time `select` returns: whatever signals arrive, the
loop waits in each turn. -/
theorem C83_once (l : List WatchAct) : (({} : Watch).run l).dumps ≤ (({} : Watch).run l).turns ∧
    (({} : Watch).run l).opens ≤ (({} : Watch).run l).turns := by
  have key : ∀ (l : List WatchAct) (w : Watch), w.dumps + w.place.due.1 ≤ w.turns ∧ w.opens + w.place.due.2 ≤ w.turns →
      (w.run l).dumps ≤ (w.run l).turns ∧ (w.run l).opens ≤ (w.run l).turns := by
    intro l
    induction l with
    | nil => intro w h; exact ⟨Nat.le_trans (Nat.le_add_right ..) h.1, Nat.le_trans (Nat.le_add_right ..) h.2⟩
    | cons a l ih =>
      intro w h
      rw [watchRun_cons]
      refine ih _ ?_
      rcases w with ⟨e, r, d, p, o, n, t⟩
      cases a with
      | sig s => cases s <;> exact h
      | go g ok =>
        cases p <;> cases e <;> cases r <;> cases d <;> cases g <;> cases ok <;>
          simp [Watch.act, Watch.go, Place.due] at h ⊢ <;> omega
  exact key l {} ⟨Nat.le_refl 0, Nat.le_refl 0⟩

example : (({} : Watch).run (.sig .usr1 :: .sig .usr2 :: List.replicate 14 (.go true true))).dumps = 2 ∧
    (({} : Watch).run (.sig .usr1 :: .sig .usr2 :: List.replicate 14 (.go true true))).turns = 2 ∧
    (({} : Watch).run (.sig .usr1 :: .sig .usr2 :: List.replicate 14 (.go true true))).opens = 1 := by decide

/-! A termination signal while the loop waits; a dump; and a log file that is opened again. -/
example : (({} : Watch).run [.sig .term, .go false true, .go false true]).place = .left := by decide

example : (({} : Watch).run [.go false true, .sig .usr1, .go false true, .go false true, .go false true, .go false true, .go false true]) =
    { place := .wait, dumps := 1, turns := 1 } := by decide

example : (({} : Watch).run [.go false true, .go false true, .sig .usr2, .go false true, .go false true, .sig .usr2, .go false true,
    .go false true, .go false true, .go false true, .go false true]).opens = 1 := by decide

end Babel
