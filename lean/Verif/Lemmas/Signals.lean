import Verif.Spec.Signals
set_option linter.unusedVariables false
namespace Babel

/-- Steps until the loop is left, if it has been told to exit. -/
def Place.toExit : Place → Nat
  | .left => 0 | .testExit => 1 | .wait => 2 | .clearDump => 3 | .dump => 4 | .testDump => 5 | .clearReopen => 6 | .reopen => 7
  | .testReopen => 8

theorem watchRun_cons (w : Watch) (a : WatchAct) (l : List WatchAct) : w.run (a :: l) = (w.act a).run l := rfl

theorem exit_run (l : List WatchAct) : ∀ w : Watch, w.exiting = true → w.place.toExit ≤ Spec.steps l → (w.run l).place = .left := by
  induction l with
  | nil => intro w h hs; rcases w with ⟨_, _, _, p, _, _, _⟩; cases p <;> simp [Spec.steps, Place.toExit] at hs; rfl
  | cons a l ih =>
    intro w h hs
    rw [watchRun_cons]
    cases a with
    | sig s =>
      refine ih _ ?_ ?_
      · cases s <;> simp [Watch.act, Watch.signal, h]
      · have : (w.act (.sig s)).place = w.place := by cases s <;> rfl
        rw [this]
        simpa [Spec.steps] using hs
    | go d ok =>
      have hs' : w.place.toExit ≤ Spec.steps l + 1 := by simpa [Spec.steps] using hs
      refine ih _ ?_ ?_
      · unfold Watch.act Watch.go; rcases w with ⟨_, _, _, p, _, _, _⟩
        cases p <;> simp_all
        split <;> simp_all
      · unfold Watch.act Watch.go
        rcases w with ⟨e, r, dm, p, _, _, _⟩
        simp only at h
        subst h
        cases p <;> simp only [Place.toExit] at hs' ⊢
        · omega
        · simp
        · cases r <;> simp <;> omega
        · cases ok <;> simp; omega
        · omega
        · cases d <;> cases dm <;> simp <;> omega
        · omega
        · omega
        · omega

theorem exit_turns (l : List WatchAct) : ∀ w : Watch, w.exiting = true →
    (w.run l).turns ≤ w.turns + (if w.place = .testExit ∨ w.place = .left then 0 else 1) := by
  induction l with
  | nil => intro w h; exact Nat.le_add_right _ _
  | cons a l ih =>
    intro w h
    rw [watchRun_cons]
    cases a with
    | sig s =>
      have h1 : (w.act (.sig s)).place = w.place ∧ (w.act (.sig s)).turns = w.turns ∧ (w.act (.sig s)).exiting = true := by
        cases s <;> simp [Watch.act, Watch.signal, h]
      have := ih _ h1.2.2
      rw [h1.1, h1.2.1] at this
      exact this
    | go d ok =>
      have he : (w.act (.go d ok)).exiting = true := by
        unfold Watch.act Watch.go; rcases w with ⟨_, _, _, p, _, _, _⟩
        cases p <;> simp_all
        split <;> simp_all
      refine Nat.le_trans (ih _ he) ?_
      unfold Watch.act Watch.go
      rcases w with ⟨e, r, dm, p, _, _, _⟩
      simp only at h
      subst h
      cases p <;> simp
      · cases r <;> simp
      · cases ok <;> simp
      · cases d <;> cases dm <;> simp

/-- Steps until the tables are dumped. -/
def Place.toDump : Place → Nat
  | .left => 0 | .dump => 1 | .testDump => 2 | .clearReopen => 3 | .reopen => 4 | .testReopen => 5 | .testExit => 6 | .wait => 7
  | .clearDump => 8

theorem watchRun_mono (l : List WatchAct) : ∀ w : Watch, w.dumps ≤ (w.run l).dumps ∧ w.opens ≤ (w.run l).opens := by
  induction l with
  | nil => intro w; exact ⟨Nat.le_refl _, Nat.le_refl _⟩
  | cons a l ih =>
    intro w
    rw [watchRun_cons]
    have h := ih (w.act a)
    have : w.dumps ≤ (w.act a).dumps ∧ w.opens ≤ (w.act a).opens := by
      cases a with
      | sig s => cases s <;> simp [Watch.act, Watch.signal]
      | go d ok =>
        unfold Watch.act Watch.go
        rcases w with ⟨e, r, dm, p, _, _, _⟩
        cases p <;> simp
        split <;> simp
    omega

theorem dump_run (l : List WatchAct) : ∀ w : Watch, w.dumping = true → w.place ≠ .clearDump → w.place.toDump ≤ Spec.steps l →
    (w.run l).place = .left ∨ w.dumps < (w.run l).dumps := by
  induction l with
  | nil => intro w h hc hs; rcases w with ⟨_, _, _, p, _, _, _⟩; cases p <;> simp [Spec.steps, Place.toDump] at hs; exact Or.inl rfl
  | cons a l ih =>
    intro w h hc hs
    rw [watchRun_cons]
    cases a with
    | sig s =>
      have h1 : (w.act (.sig s)).place = w.place ∧ (w.act (.sig s)).dumps = w.dumps ∧ (w.act (.sig s)).dumping = true := by
        cases s <;> simp [Watch.act, Watch.signal, h]
      have := ih _ h1.2.2 (by rw [h1.1]; exact hc) (by rw [h1.1]; simpa [Spec.steps] using hs)
      rw [h1.2.1] at this
      exact this
    | go d ok =>
      have hs' : w.place.toDump ≤ Spec.steps l + 1 := by simpa [Spec.steps] using hs
      by_cases hd : w.place = .dump
      · right
        have := (watchRun_mono l (w.act (.go d ok))).1
        have e : (w.act (.go d ok)).dumps = w.dumps + 1 := by
          unfold Watch.act Watch.go; simp [hd]
        omega
      · have h1 : (w.act (.go d ok)).dumps = w.dumps ∧ (w.act (.go d ok)).dumping = true ∧ (w.act (.go d ok)).place ≠ .clearDump ∧
            (w.act (.go d ok)).place.toDump ≤ Spec.steps l := by
          unfold Watch.act Watch.go
          rcases w with ⟨e, r, dm, p, _, _, _⟩
          simp only at h
          subst h
          cases p <;> simp [Place.toDump] at hs' hd hc ⊢
          · omega
          · cases e <;> simp; omega
          · cases r <;> simp <;> omega
          · cases ok <;> simp; omega
          · omega
          · omega
        have := ih _ h1.2.1 h1.2.2.1 h1.2.2.2
        rw [h1.1] at this
        exact this

/-- Steps until the log file is opened again. -/
def Place.toOpen : Place → Nat
  | .left => 0 | .reopen => 1 | .testReopen => 2 | .testExit => 3 | .wait => 4 | .clearDump => 5 | .dump => 6 | .testDump => 7
  | .clearReopen => 8

theorem open_run (l : List WatchAct) : ∀ w : Watch, w.reopening = true → w.place ≠ .clearReopen → w.place.toOpen ≤ Spec.steps l →
    (w.run l).place = .left ∨ w.opens < (w.run l).opens := by
  induction l with
  | nil => intro w h hc hs; rcases w with ⟨_, _, _, p, _, _, _⟩; cases p <;> simp [Spec.steps, Place.toOpen] at hs; exact Or.inl rfl
  | cons a l ih =>
    intro w h hc hs
    rw [watchRun_cons]
    cases a with
    | sig s =>
      have h1 : (w.act (.sig s)).place = w.place ∧ (w.act (.sig s)).opens = w.opens ∧ (w.act (.sig s)).reopening = true := by
        cases s <;> simp [Watch.act, Watch.signal, h]
      have := ih _ h1.2.2 (by rw [h1.1]; exact hc) (by rw [h1.1]; simpa [Spec.steps] using hs)
      rw [h1.2.1] at this
      exact this
    | go d ok =>
      have hs' : w.place.toOpen ≤ Spec.steps l + 1 := by simpa [Spec.steps] using hs
      by_cases hd : w.place = .reopen ∧ ok = true
      · right
        have := (watchRun_mono l (w.act (.go d ok))).2
        have e : (w.act (.go d ok)).opens = w.opens + 1 := by
          unfold Watch.act Watch.go; simp [hd.1, hd.2]
        omega
      · have h1 : (w.act (.go d ok)).opens = w.opens ∧ (w.act (.go d ok)).reopening = true ∧ (w.act (.go d ok)).place ≠ .clearReopen ∧
            (w.act (.go d ok)).place.toOpen ≤ Spec.steps l := by
          unfold Watch.act Watch.go
          rcases w with ⟨e, r, dm, p, _, _, _⟩
          simp only at h
          subst h
          cases p <;> simp [Place.toOpen] at hs' hd hc ⊢
          · omega
          · cases e <;> simp; omega
          · omega
          · simp [hd]
          · cases d <;> cases dm <;> simp <;> omega
          · omega
          · omega
        have := ih _ h1.2.1 h1.2.2.1 h1.2.2.2
        rw [h1.1] at this
        exact this

/-- How many times the tables may still be dumped, and the log file opened, before the loop waits. -/
def Place.due : Place → Nat × Nat
  | .testExit | .testReopen | .reopen => (1, 1)
  | .clearReopen | .testDump | .dump => (1, 0)
  | .wait | .clearDump | .left => (0, 0)

end Babel
