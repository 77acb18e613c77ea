import Verif.Spec.Sockets
/-
Setting up sockets.
-/
set_option linter.unusedSimpArgs false
set_option linter.unusedVariables false
namespace Babel
open Spec

/-- The calls that succeeded have been applied; those whose failure is fatal have succeeded. -/
inductive Applied : List (Call × Bool) → Socket → Socket → Prop
  | nil (s) : Applied [] s s
  | ok {c f l s s'} : Applied l (c.apply s) s' → Applied ((c, f) :: l) s s'
  | skip {c l s s'} : Applied l s s' → Applied ((c, false) :: l) s s'

theorem setSock_head {o : Os} {fd : Nat} {s : Socket} {R : List (Nat × Socket)} (h : o.socks = (fd, s) :: R) (hR : ∀ p ∈ R, p.1 ≠ fd) (f : Socket → Socket) :
    (o.setSock fd f).socks = (fd, f s) :: R := by
  unfold Os.setSock
  simp only [h, List.map_cons, if_true]
  congr 1
  refine (List.map_congr_left fun p hp => ?_).trans (List.map_id _)
  rw [if_neg (hR p hp)]
  rfl

/-- A call. -/
theorem call_spec {o : Os} {fd : Nat} {s : Socket} {R : List (Nat × Socket)} (h : o.socks = (fd, s) :: R) (hR : ∀ p ∈ R, p.1 ≠ fd) (c : Call) :
    (o.call fd c).2.next = o.next ∧ (o.call fd c).2.fate = (fun i => o.fate (i + 1)) ∧
    ((o.call fd c).1 = true ↔ o.fate 0 = none ∧ ∀ p, c.file = some p → p ∉ o.files) ∧
    ((o.call fd c).1 = true → (o.call fd c).2.socks = (fd, c.apply s) :: R ∧ (o.call fd c).2.files = c.file.toList ++ o.files) ∧
    ((o.call fd c).1 = false → (o.call fd c).2.socks = (fd, s) :: R ∧ (o.call fd c).2.files = o.files) := by
  unfold Os.call Os.pop
  cases hf : o.fate 0 with
  | some e => simp [h]
  | none =>
    simp only
    cases hc : c.file with
    | none =>
      simp only [true_and, List.nil_append, Option.toList_none]
      have := setSock_head (o := { o with fate := fun i => o.fate (i + 1) }) h hR c.apply
      exact ⟨rfl, rfl, ⟨fun _ _ h => (by cases h), fun _ => trivial⟩, fun _ => ⟨this, rfl⟩, nofun⟩
    | some p =>
      simp only
      by_cases hp : p ∈ o.files
      · simp [hp, h]
      · have := setSock_head (o := { o with fate := fun i => o.fate (i + 1) }) h hR c.apply
        simp only [hp, if_false]
        exact ⟨rfl, rfl, ⟨fun _ => ⟨trivial, fun q hq => (Option.some.inj hq) ▸ hp⟩, fun _ => trivial⟩, fun _ => ⟨this, rfl⟩, nofun⟩

/-- Calls that create no file. -/
theorem calls_spec {fd : Nat} {R : List (Nat × Socket)} (hR : ∀ p ∈ R, p.1 ≠ fd) : ∀ (l : List (Call × Bool)), (∀ c ∈ l, c.1.file = none) →
    ∀ {o : Os} {s : Socket}, o.socks = (fd, s) :: R →
    (o.calls fd l).2.next = o.next ∧ (o.calls fd l).2.files = o.files ∧
    (∃ s', (o.calls fd l).2.socks = (fd, s') :: R ∧ ((o.calls fd l).1 = true → Applied l s s')) ∧
    ((o.calls fd l).1 = true ↔ ∀ i c, l[i]? = some (c, true) → o.fate i = none) ∧
    ((o.calls fd l).1 = true → (o.calls fd l).2.fate = fun i => o.fate (i + l.length)) := by
  intro l
  induction l with
  | nil =>
    intro _ o s h
    exact ⟨rfl, rfl, ⟨s, h, fun _ => .nil s⟩, ⟨fun _ i c h => (by simp at h), fun _ => rfl⟩, fun _ => rfl⟩
  | cons x l ih =>
    obtain ⟨c, f⟩ := x
    intro hl o s h
    have hl1 : c.file = none := hl _ (List.mem_cons_self ..)
    have hl2 : ∀ c ∈ l, c.1.file = none := fun c hc => hl c (List.mem_cons_of_mem _ hc)
    obtain ⟨c1, c2, c3, c4, c5⟩ := call_spec h hR c
    have hfate : ∀ (o1 : Os), o1.fate = (fun i => o.fate (i + 1)) → ((∀ i c, l[i]? = some (c, true) → o1.fate i = none) ↔
        ∀ i c, l[i]? = some (c, true) → o.fate (i + 1) = none) := fun o1 h1 => by rw [h1]
    unfold Os.calls
    cases hc : o.call fd c with
    | mk b o1 =>
      rw [hc] at c1 c2 c3 c4 c5
      simp only at c1 c2 c3 c4 c5
      have c6 : b = true ↔ o.fate 0 = none := by
        rw [c3]
        exact ⟨fun h => h.1, fun h => ⟨h, fun p hp => by rw [hl1] at hp; cases hp⟩⟩
      have again : ∀ s1, o1.socks = (fd, s1) :: R → o1.files = o.files → (b = true ∨ f = false) → (∀ s', Applied l s1 s' → Applied ((c, f) :: l) s s') →
          (o1.calls fd l).2.next = o.next ∧ (o1.calls fd l).2.files = o.files ∧
          (∃ s', (o1.calls fd l).2.socks = (fd, s') :: R ∧ ((o1.calls fd l).1 = true → Applied ((c, f) :: l) s s')) ∧
          ((o1.calls fd l).1 = true ↔ ∀ i c', ((c, f) :: l)[i]? = some (c', true) → o.fate i = none) ∧
          ((o1.calls fd l).1 = true → (o1.calls fd l).2.fate = fun i => o.fate (i + ((c, f) :: l).length)) := by
        intro s1 hs hfi hb ha
        obtain ⟨g1, g2, ⟨s', g3, g4⟩, g5, g6⟩ := ih hl2 hs
        refine ⟨g1.trans c1, g2.trans hfi, ⟨s', g3, fun h => ha _ (g4 h)⟩, ?_, fun h => ?_⟩
        · rw [g5, hfate o1 c2]
          constructor
          · intro g i c' hi
            cases i with
            | zero =>
              simp only [List.getElem?_cons_zero, Option.some.injEq, Prod.mk.injEq] at hi
              rcases hb with hb | hb
              · exact c6.1 hb
              · rw [hb] at hi; cases hi.2
            | succ i => exact g i c' (by simpa using hi)
          · intro g i c' hi
            exact g (i + 1) c' (by simpa using hi)
        · rw [g6 h, c2]
          funext i
          simp only [List.length_cons]
          congr 1
      cases b with
      | true =>
        obtain ⟨d1, d2⟩ := c4 rfl
        rw [hl1] at d2
        exact again _ d1 d2 (.inl rfl) fun s' h => .ok h
      | false =>
        obtain ⟨d1, d2⟩ := c5 rfl
        cases f with
        | false => exact again _ d1 d2 (.inr rfl) fun s' h => .skip h
        | true =>
          refine ⟨c1, d2, ⟨s, d1, nofun⟩, ⟨nofun, fun g => ?_⟩, nofun⟩
          have := g 0 c (by simp)
          rw [← c6] at this
          exact absurd this (by decide)

theorem close_head {o : Os} {fd : Nat} {s : Socket} {R : List (Nat × Socket)} (h : o.socks = (fd, s) :: R) (hR : ∀ p ∈ R, p.1 ≠ fd) : (o.close fd).socks = R := by
  unfold Os.close
  simp only [h]
  rw [List.filter_cons_of_neg (by simp)]
  exact List.filter_eq_self.2 fun p hp => by simpa using hR p hp

theorem socket_spec {o : Os} (ho : FdsOk o) (k : SockKind) :
    (∀ p ∈ o.socks, p.1 ≠ o.next) ∧ (o.socket k).2.files = o.files ∧ (o.socket k).2.fate = (fun i => o.fate (i + 1)) ∧
    ((∃ e, o.fate 0 = some e) ∧ (o.socket k).1 = none ∧ (o.socket k).2.socks = o.socks ∧ (o.socket k).2.next = o.next ∨
    o.fate 0 = none ∧ (o.socket k).1 = some o.next ∧ (o.socket k).2.socks = (o.next, { kind := k }) :: o.socks ∧ (o.socket k).2.next = o.next + 1) := by
  refine ⟨fun p hp => Nat.ne_of_lt (ho p hp), ?_⟩
  unfold Os.socket Os.pop
  cases hf : o.fate 0 with
  | some e => exact ⟨rfl, rfl, .inl ⟨⟨e, rfl⟩, rfl, rfl, rfl⟩⟩
  | none => exact ⟨rfl, rfl, .inr ⟨rfl, rfl, rfl, rfl⟩⟩

/-- A socket set up by calls that create no file. -/
theorem make_spec {o : Os} (ho : FdsOk o) (k : SockKind) (l : List (Call × Bool)) (hl : ∀ c ∈ l, c.1.file = none) :
    (o.make k l).2.files = o.files ∧ FdsOk (o.make k l).2 ∧
    ((o.make k l).1 = none → (o.make k l).2.socks = o.socks) ∧
    (∀ fd, (o.make k l).1 = some fd → Opened o (o.make k l).2 (Applied l { kind := k }) fd ∧ (o.make k l).2.fate = fun i => o.fate (i + (l.length + 1))) ∧
    ((o.make k l).1.isSome = true ↔ o.fate 0 = none ∧ ∀ i c, l[i]? = some (c, true) → o.fate (i + 1) = none) := by
  obtain ⟨s1, s2, s3, s4⟩ := socket_spec ho k
  unfold Os.make
  rcases s4 with ⟨⟨e, t0⟩, t1, t2, t3⟩ | ⟨t0, t1, t2, t3⟩
  · cases hs : o.socket k with
    | mk a o1 =>
      rw [hs] at s2 s3 t1 t2 t3
      simp only at s2 s3 t1 t2 t3
      subst t1
      refine ⟨s2, fun p hp => ?_, fun _ => t2, nofun, ⟨nofun, fun h => ?_⟩⟩
      · simp only at hp ⊢
        rw [t2] at hp; rw [t3]; exact ho p hp
      · rw [t0] at h; cases h.1
  · cases hs : o.socket k with
    | mk a o1 =>
      rw [hs] at s2 s3 t1 t2 t3
      simp only at s2 s3 t1 t2 t3
      subst t1
      simp only
      obtain ⟨g1, g2, ⟨s', g3, g4⟩, g5, g6⟩ := calls_spec s1 l hl t2
      cases hc : o1.calls o.next l with
      | mk b o2 =>
        rw [hc] at g1 g2 g3 g4 g5 g6
        simp only at g1 g2 g3 g4 g5 g6
        rw [s3] at g5 g6
        cases b with
        | true =>
          refine ⟨g2.trans s2, fun p hp => ?_, nofun, fun fd hfd => ?_, ⟨fun _ => ⟨t0, g5.1 rfl⟩, fun _ => rfl⟩⟩
          · simp only at hp ⊢
            rw [g3] at hp
            rw [g1, t3]
            rcases List.mem_cons.1 hp with rfl | hp
            · exact Nat.lt_succ_self _
            · exact Nat.lt_succ_of_lt (ho p hp)
          · cases hfd
            refine ⟨⟨s1, s', g3, g4 rfl⟩, ?_⟩
            rw [g6 rfl]
            funext i
            simp only
            congr 1
        | false =>
          refine ⟨g2.trans s2, fun p hp => ?_, fun _ => close_head g3 s1, nofun, ⟨nofun, fun h => absurd (g5.2 h.2) (by decide)⟩⟩
          have hp : p ∈ (o2.close o.next).socks := hp
          rw [close_head g3 s1] at hp
          show p.1 < o2.next
          rw [g1, t3]
          exact Nat.lt_succ_of_lt (ho p hp)

end Babel
