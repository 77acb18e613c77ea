import Verif.Spec.Trigger
import Verif.Lemmas.Told
import Verif.Lemmas.Walk2
import Verif.Lemmas.Outs
import Verif.Props.Queue
/-
When `send_triggered_update` sends an update, and how soon.
-/
set_option linter.unusedSimpArgs false
set_option linter.unusedVariables false
namespace Babel
open Spec
variable {c : Cfg}

theorem unsatisfied_iff (s : St) (r : Route) : unsatisfiedRequest s r.key r.seqno r.id = true ↔ Answers s r := by
  unfold unsatisfiedRequest Answers
  have e : findResend s .request r.key = pending s .request r.key := rfl
  rw [e]
  cases pending s .request r.key with
  | none => simp
  | some q =>
    simp only [Option.some.injEq, exists_eq_left']
    rw [← lapsed_iff, ← seqnoCompare_pos]
    cases resendExpired s.now q <;> simp [Int.not_lt]

/-- The urgency in terms of the specification. -/
theorem triggerUrgency_iff (s : St) (r : Route) (src : SKey) (m : Nat) :
    (Notable s r src m ↔ triggerUrgency s r src m ≠ none) ∧
    (Pressing s r src m ↔ ∃ u, triggerUrgency s r src m = some u ∧ 1 ≤ u) ∧
    ∀ u, triggerUrgency s r src m = some u → u ≤ 2 := by
  unfold Notable Pressing triggerUrgency
  rw [← unsatisfied_iff]
  generalize unsatisfiedRequest s r.key r.seqno r.id = b
  generalize routeMetric r = n
  simp only
  generalize hI : INFINITY = I
  have hd1 : n ≥ m → (if n ≥ m then n - m else m - n) = n - m := fun h => if_pos h
  have hd2 : n < m → (if n ≥ m then n - m else m - n) = m - n := fun h => if_neg (by omega)
  generalize (if n ≥ m then n - m else m - n) = d at *
  by_cases h1 : r.skey ≠ src ∨ (m < I ∧ n ≥ I)
  · rw [if_pos h1]
    have h1' : r.skey ≠ src ∨ m < I ∧ I ≤ n ∨ m < 1536 ∧ m + 512 ≤ n ∨ b = true := by
      rcases h1 with h | h
      · exact .inl h
      · exact .inr (.inl h)
    exact ⟨⟨fun _ => by simp, fun _ => .inl h1'⟩, ⟨fun _ => ⟨2, rfl, by omega⟩, fun _ => h1'⟩, by simp⟩
  rw [if_neg h1]
  obtain ⟨h2, h3⟩ := not_or.1 h1
  have h3 : ¬ (m < I ∧ I ≤ n) := h3
  by_cases h4 : n > m ∧ m < 6 * 256 ∧ d ≥ 512
  · rw [if_pos h4]
    have h5 : m < 1536 ∧ m + 512 ≤ n := by
      obtain ⟨a, b, e⟩ := h4
      have := hd1 (by omega)
      omega
    exact ⟨⟨fun _ => by simp, fun _ => .inl (.inr (.inr (.inl h5)))⟩, ⟨fun _ => ⟨1, rfl, by omega⟩, fun _ => .inr (.inr (.inl h5))⟩,
      by simp⟩
  rw [if_neg h4]
  have h5 : ¬ (m < 1536 ∧ m + 512 ≤ n) := by
    intro h; apply h4; refine ⟨by omega, by omega, ?_⟩; have := hd1 (by omega); omega
  cases b with
  | true =>
    rw [if_pos rfl]
    exact ⟨⟨fun _ => by simp, fun _ => .inl (.inr (.inr (.inr rfl)))⟩, ⟨fun _ => ⟨1, rfl, by omega⟩, fun _ => .inr (.inr (.inr rfl))⟩,
      by simp⟩
  | false =>
    rw [if_neg (by simp)]
    have hp : ¬ (r.skey ≠ src ∨ m < I ∧ I ≤ n ∨ m < 1536 ∧ m + 512 ≤ n ∨ false = true) := by
      rintro (h | h | h | h)
      · exact h2 h
      · exact h3 h
      · exact h5 h
      · cases h
    refine ⟨⟨?_, ?_⟩, ⟨fun h => absurd h hp, ?_⟩, ?_⟩
    · intro h
      rcases h with h | h
      · exact absurd h hp
      · split
        · simp
        · next g1 =>
          have g1 : ¬ (I ≤ m ∧ n < I) := g1
          split
          · next g2 =>
            have := hd2 g2.1
            omega
          · next g2 =>
            split
            · next g3 =>
              by_cases hnm : n ≥ m
              · have := hd1 hnm; omega
              · have := hd2 (by omega); omega
            · simp
    · intro h
      right
      split at h
      · next g => exact .inl g
      · split at h
        · simp at h
        · next g2 =>
          split at h
          · simp at h
          · next g3 =>
            by_cases hnm : n ≥ m
            · have := hd1 hnm; omega
            · have := hd2 (by omega)
              have : ¬ (d < 1024) := fun h => g2 ⟨by omega, h⟩
              omega
    · rintro ⟨u, h, hu⟩
      split at h
      · cases h; omega
      · split at h
        · cases h
        · split at h
          · cases h
          · cases h; omega
    · intro u h
      split at h
      · cases h; omega
      · split at h
        · cases h
        · split at h
          · cases h
          · cases h; omega

/-! ### The deadline -/

theorem soon_congr {s s' : St} (hi : s'.ifaces = s.ifaces) (hn : s'.now = s.now) {i : IfId} {k : PKey}
    (h : SoonSent s i k) : SoonSent s' i k := by
  intro x hx
  rw [hn]
  exact h x (by unfold getIf at hx ⊢; rw [← hi]; exact hx)

theorem sendIf_now {s : St} (hl : LInv c s.routes) (i : IfId) (u : Bool) (k : PKey) :
    (sendUpdateIf c s i u k).now = s.now ∧ (sendUpdateIf c s i u k).routes = s.routes ∧
    ∀ j, j ≠ i → getIf (sendUpdateIf c s i u k) j = getIf s j := by
  unfold sendUpdateIf
  split
  · exact ⟨rfl, rfl, fun _ _ => rfl⟩
  · next h =>
    obtain ⟨ifp, hg, hup⟩ := ifUp_iff.1 (by simpa using h)
    have hi := (getIf_mem hg).1
    subst hi
    obtain ⟨h1, h2, y, hy, hk, -, hyi, -⟩ := bufferUpdate_spec (c := c) hl hg k
    rw [← hyi] at hy ⊢
    obtain ⟨h3, -, h4, -⟩ := schedule_spec hy u
    rw [hyi] at hy h4 h3 ⊢
    exact ⟨h3.now.trans h1.now, h3.routes.trans h1.routes, fun j hj => (h4 j hj).trans (h2 j hj)⟩

theorem soon_sendIf {s : St} (hl : LInv c s.routes) (hn : TvOk s.now) (i : IfId) (k : PKey) :
    SoonSent (sendUpdateIf c s i true k) i k := by
  intro x hx hup hk
  obtain ⟨h1, -, -⟩ := sendIf_now hl i true k
  cases hu : ifUp s i with
  | false =>
    unfold sendUpdateIf at hx
    rw [hu] at hx
    simp only [Bool.not_false, if_true] at hx
    rw [ifUp_iff.2 ⟨x, hx, hup⟩] at hu
    cases hu
  | true =>
    obtain ⟨ifp, hg, hup'⟩ := ifUp_iff.1 hu
    obtain ⟨y, hy, hd⟩ := sendIf_scheduled hl hn hg hup' true k
    rw [hy] at hx; cases hx
    rw [h1]
    simpa using hd

theorem soon_fold {l : List IfId} {s : St} (hl : LInv c s.routes) (hn : TvOk s.now) (k : PKey) :
    (l.foldl (fun s i => sendUpdateIf c s i true k) s).now = s.now ∧
    (l.foldl (fun s i => sendUpdateIf c s i true k) s).routes = s.routes ∧
    ∀ i, (i ∈ l ∨ SoonSent s i k) → SoonSent (l.foldl (fun s i => sendUpdateIf c s i true k) s) i k := by
  induction l generalizing s with
  | nil => exact ⟨rfl, rfl, fun i h => h.resolve_left (by simp)⟩
  | cons j l ih =>
    obtain ⟨h1, h2, h3⟩ := sendIf_now (c := c) hl j true k
    obtain ⟨g1, g2, g3⟩ := ih (s := sendUpdateIf c s j true k) (by rw [h2]; exact hl) (by rw [h1]; exact hn)
    refine ⟨g1.trans h1, g2.trans h2, fun i hi => ?_⟩
    by_cases hij : i = j
    · subst hij
      exact g3 i (.inr (soon_sendIf hl hn i k))
    · refine g3 i ?_
      rcases hi with hi | hi
      · exact .inl ((List.mem_cons.1 hi).resolve_left hij)
      · right
        intro x hx
        rw [h3 i hij] at hx
        rw [h1]
        exact hi x hx

theorem soon_sendUpdate {s : St} (hl : LInv c s.routes) (hn : TvOk s.now) (i : IfId) (k : PKey) :
    SoonSent (sendUpdate c s true k) i k := by
  obtain ⟨h1, h2, h3⟩ := soon_fold (c := c) (l := allIfs s) hl hn k
  have hid := (sendUpdate_fold (c := c) (l := allIfs s) hl true k).1.ids
  have key : SoonSent ((allIfs s).foldl (fun s i => sendUpdateIf c s i true k) s) i k := by
    by_cases hi : i ∈ allIfs s
    · exact h3 i (.inl hi)
    · intro x hx
      exfalso
      apply hi
      rw [← hid]
      exact List.mem_map.2 ⟨x, (getIf_mem hx).2, (getIf_mem hx).1⟩
  unfold sendUpdate
  simp only
  split
  · exact key
  · split
    · split
      · obtain ⟨g1, g2, -⟩ := satisfy_same ((allIfs s).foldl (fun s i => sendUpdateIf c s i true k) s) k _ _ none
        exact soon_congr g2 g1.now key
      · exact key
    · exact key

theorem soon_resend {s : St} (hl : LInv c s.routes) (hn : TvOk s.now) (i : IfId) (k : PKey) :
    SoonSent (sendUpdateResend c s k) i k := by
  unfold sendUpdateResend
  obtain ⟨h1, h2, -⟩ := record_fields c (sendUpdate c s true k) .update k 0 none none c.resendDelay
  exact soon_congr h2 h1 (soon_sendUpdate hl hn i k)

theorem soon_mrequestIf {s : St} (hl : LInv c s.routes) (j : IfId) (kr : Option PKey) {i : IfId} {k : PKey}
    (h : SoonSent s i k) : SoonSent (sendMulticastRequestIf c s j kr) i k := by
  unfold sendMulticastRequestIf
  split
  · exact h
  · next hu =>
    obtain ⟨ifp, hg, hup⟩ := ifUp_iff.1 (by simpa using hu)
    have hi := (getIf_mem hg).1
    subst hi
    obtain ⟨h1, h2, h3, -⟩ := flushUpdates_spec (c := c) hl hg
    have key : SoonSent (flushUpdates c s ifp.ifindex) i k := by
      intro x hx hxu hxk
      by_cases hij : i = ifp.ifindex
      · subst hij
        rw [h2] at hx; cases hx
        simp [flushedIf] at hxk
      · rw [h3 i hij] at hx
        rw [h1.now]
        exact h x hx hxu hxk
    unfold sendRequest
    split
    · exact soon_congr rfl rfl key
    · split
      · exact key
      · exact soon_congr rfl rfl key

theorem soon_mrequest {s : St} (hl : LInv c s.routes) (kr : Option PKey) {i : IfId} {k : PKey}
    (h : SoonSent s i k) : SoonSent (sendMulticastRequest c s kr) i k := by
  unfold sendMulticastRequest
  generalize allIfs s = l
  induction l generalizing s with
  | nil => exact h
  | cons j l ih => exact ih ((quiet_mrequestIf hl j kr).linv hl) (soon_mrequestIf hl j kr h)

end Babel
