import Verif.Spec.Hub
/-
Lemmas for C80.
-/
set_option linter.unusedSimpArgs false
namespace Babel
open Babel.Spec

/-- The table without one connection: the last one takes its place. -/
def swapOut (post : List Client) : List Client :=
  match post.getLast? with
  | none => []
  | some l => l :: post.dropLast

theorem swapOut_nil : swapOut [] = [] := rfl

theorem swapOut_snoc (m : List Client) (l : Client) : swapOut (m ++ [l]) = l :: m := by
  simp [swapOut]

theorem set_at (pre post : List Client) (c d : Client) : (pre ++ c :: post).set pre.length d = pre ++ d :: post := by
  simp

theorem destroy_at (h : Hub) (pre post : List Client) (c : Client) (ht : h.table = pre ++ c :: post) :
    h.destroy pre.length = { table := pre ++ swapOut post, opened := h.opened.erase c.fd } := by
  have e : h.table[pre.length]? = some c := by rw [ht]; simp
  unfold Hub.destroy
  rw [e]
  simp only [Hub.close]
  congr 1
  rw [ht]
  rcases List.eq_nil_or_concat post with rfl | ⟨m, l, rfl⟩
  · simp [swapOut_nil]
  · have e1 : (pre ++ c :: (m ++ [l])).getLast?.getD c = l := by
      rw [show pre ++ c :: (m ++ [l]) = (pre ++ c :: m) ++ [l] by simp, List.getLast?_concat]; rfl
    rw [List.concat_eq_append, e1, swapOut_snoc, set_at, show pre ++ l :: (m ++ [l]) = (pre ++ l :: m) ++ [l] by simp,
      List.dropLast_concat]

theorem swapOut_perm (post : List Client) : (swapOut post).Perm post := by
  rcases List.eq_nil_or_concat post with rfl | ⟨m, l, rfl⟩
  · exact .refl _
  · rw [List.concat_eq_append, swapOut_snoc]
    exact (List.perm_append_singleton l m).symm

theorem fds_append (h : Hub) (a b : List Client) (ht : h.table = a ++ b) : Hub.fds h = a.map (·.fd) ++ b.map (·.fd) := by
  unfold Hub.fds; rw [ht]; simp

/-- What the loop does from some place on. -/
structure ReadSpec (L : Libc) (ready : Nat → Bool) (env : Nat → List (ReadRes × List Bool)) (h : Hub) (post : List Client)
    (h' : Hub) (served : List Nat) : Prop where
  ok : HubOk h'
  sub : ∀ c ∈ h'.table, c.fd ∈ Hub.fds h
  was : ∀ f ∈ served, ready f = true ∧ f ∈ post.map (·.fd)
  once : served.Nodup
  other : ∀ c ∈ h.table, c.fd ∉ served → c ∈ h'.table
  done : ∀ c ∈ post, ready c.fd = true → c.fd ∈ served ∨ ∃ g ∈ served, g ∉ Hub.fds h'
  all : (∀ g ∈ served, g ∈ Hub.fds h') → served = (post.map (·.fd)).filter ready
  result : ∀ c ∈ post, c.fd ∈ served → ∃ s1 s2 k keep, serve L (env c.fd) s1 c.sock = some (s2, k, keep) ∧
    (keep = true → (⟨c.fd, k⟩ : Client) ∈ h'.table) ∧ (keep = false → c.fd ∉ Hub.fds h')

theorem read_spec (L : Libc) (ready : Nat → Bool) (env : Nat → List (ReadRes × List Bool)) :
    ∀ (fuel : Nat) (s : Conf) (h : Hub) (pre post : List Client) (s' : Conf) (h' : Hub) (served : List Nat),
      h.table = pre ++ post → post.length ≤ fuel → HubOk h →
      Hub.read L ready env fuel s h pre.length = some (s', h', served) → ReadSpec L ready env h post h' served := by
  intro fuel
  induction fuel with
  | zero =>
    intro s h pre post s' h' served ht hl hok hr
    have : post = [] := List.length_eq_zero_iff.1 (by omega)
    subst this
    simp only [Hub.read, Option.some.injEq, Prod.mk.injEq] at hr
    obtain ⟨-, rfl, rfl⟩ := hr
    exact ⟨hok, fun c hc => List.mem_map_of_mem hc, by simp, by simp, fun c hc _ => hc, by simp, by simp, by simp⟩
  | succ fuel ih =>
    intro s h pre post s' h' served ht hl hok hr
    rw [Hub.read] at hr
    cases post with
    | nil =>
      have e : h.table[pre.length]? = none := by rw [ht]; simp
      rw [e] at hr
      simp only [Option.some.injEq, Prod.mk.injEq] at hr
      obtain ⟨-, rfl, rfl⟩ := hr
      exact ⟨hok, fun c hc => List.mem_map_of_mem hc, by simp, by simp, fun c hc _ => hc, by simp, by simp, by simp⟩
    | cons c post =>
      have e : h.table[pre.length]? = some c := by rw [ht]; simp
      rw [e] at hr
      simp only at hr
      have hd := hok.distinct
      rw [fds_append h _ _ ht, List.map_cons] at hd
      have hcpre : c.fd ∉ pre.map (·.fd) := fun hm =>
        (List.nodup_append.1 hd).2.2 _ hm _ (by simp) rfl
      have hcpost : c.fd ∉ post.map (·.fd) := (List.nodup_cons.1 (List.nodup_append.1 hd).2.1).1
      by_cases hrd : ready c.fd = true
      · rw [if_pos hrd] at hr
        cases hs : serve L (env c.fd) s c.sock with
        | none => rw [hs] at hr; cases hr
        | some x =>
          obtain ⟨s2, k, keep⟩ := x
          rw [hs] at hr
          simp only at hr
          cases keep with
          | true =>
            simp only [if_true] at hr
            obtain ⟨⟨s3, h3, l3⟩, hr2, he⟩ := Option.map_eq_some_iff.1 hr
            clear hr
            simp only [Prod.mk.injEq] at he
            obtain ⟨rfl, rfl, rfl⟩ := he
            have ht2 : h.table.set pre.length ⟨c.fd, k⟩ = pre ++ ⟨c.fd, k⟩ :: post := by rw [ht, set_at]
            rw [ht2] at hr2
            have hf2 : Hub.fds { h with table := pre ++ ⟨c.fd, k⟩ :: post } = Hub.fds h := by
              unfold Hub.fds; rw [ht]; simp
            have hok2 : HubOk { h with table := pre ++ ⟨c.fd, k⟩ :: post } := by
              refine ⟨?_, hf2 ▸ hok.distinct, hf2 ▸ hok.opened⟩
              have := hok.room; rw [ht] at this; simpa using this
            have := ih s2 { h with table := pre ++ ⟨c.fd, k⟩ :: post } (pre ++ [⟨c.fd, k⟩]) post s3 h3 l3 (by simp)
              (by simp at hl; omega) hok2 (by simpa using hr2)
            have hnot : c.fd ∉ l3 := fun hm => hcpost (this.was _ hm).2
            have hmem : (⟨c.fd, k⟩ : Client) ∈ h3.table := this.other ⟨c.fd, k⟩ (by simp) hnot
            refine ⟨this.ok, fun d hd => hf2 ▸ this.sub d hd, ?_, ?_, ?_, ?_, ?_, ?_⟩
            · intro f hf
              rcases List.mem_cons.1 hf with rfl | hf
              · exact ⟨hrd, by simp⟩
              · exact ⟨(this.was f hf).1, by have := (this.was f hf).2; rw [List.map_cons]; exact List.mem_cons_of_mem _ this⟩
            · exact List.nodup_cons.2 ⟨hnot, this.once⟩
            · intro d hd hn
              refine this.other d ?_ (fun hm => hn (List.mem_cons_of_mem _ hm))
              rw [ht] at hd
              simp only [List.mem_append, List.mem_cons] at hd ⊢
              rcases hd with hd | rfl | hd
              · exact Or.inl hd
              · exact absurd (List.mem_cons_self ..) hn
              · exact Or.inr (Or.inr hd)
            · intro d hd hrdy
              rcases List.mem_cons.1 hd with rfl | hd
              · exact Or.inl (by simp)
              · rcases this.done d hd hrdy with h1 | ⟨g, h1, h2⟩
                · exact Or.inl (List.mem_cons_of_mem _ h1)
                · exact Or.inr ⟨g, List.mem_cons_of_mem _ h1, h2⟩
            · intro hg
              rw [List.map_cons, List.filter_cons_of_pos hrd, this.all (fun g h1 => hg g (List.mem_cons_of_mem _ h1))]
            · intro d hd hm
              rcases List.mem_cons.1 hd with rfl | hd
              · exact ⟨s, s2, k, true, hs, fun _ => hmem, fun h => by cases h⟩
              · have hne : d.fd ≠ c.fd := fun he => hcpost (he ▸ List.mem_map_of_mem hd)
                rcases List.mem_cons.1 hm with h1 | h1
                · exact absurd h1 hne
                · exact this.result d hd h1
          | false =>
            simp only [Bool.false_eq_true, if_false] at hr
            obtain ⟨⟨s3, h3, l3⟩, hr2, he⟩ := Option.map_eq_some_iff.1 hr
            clear hr
            simp only [Prod.mk.injEq] at he
            obtain ⟨rfl, rfl, rfl⟩ := he
            rw [destroy_at h pre post c ht] at hr2
            have hperm : ((pre ++ swapOut post).map (·.fd)).Perm (pre.map (·.fd) ++ post.map (·.fd)) := by
              rw [List.map_append]
              exact (List.Perm.refl _).append ((swapOut_perm post).map _)
            have hfds : Hub.fds { table := pre ++ swapOut post, opened := h.opened.erase c.fd } = (pre ++ swapOut post).map (·.fd) := rfl
            have hnd : ((pre ++ swapOut post).map (·.fd)).Nodup := by
              refine hperm.nodup_iff.2 ?_
              have := (List.perm_middle (a := c.fd) (l₁ := pre.map (·.fd)) (l₂ := post.map (·.fd))).nodup_iff.1 hd
              exact (List.nodup_cons.1 this).2
            have hcout : c.fd ∉ (pre ++ swapOut post).map (·.fd) := fun hm => by
              have := hperm.mem_iff.1 hm
              rcases List.mem_append.1 this with h1 | h1
              · exact hcpre h1
              · exact hcpost h1
            have hok2 : HubOk { table := pre ++ swapOut post, opened := h.opened.erase c.fd } := by
              refine ⟨?_, hnd, ?_⟩
              · have h1 := hok.room
                have h2 := (swapOut_perm post).length_eq
                rw [ht] at h1
                simp at h1 ⊢
                omega
              · have h1 := hok.opened.erase c.fd
                rw [fds_append h _ _ ht, List.map_cons] at h1
                have h2 : ((pre.map (·.fd) ++ c.fd :: post.map (·.fd)).erase c.fd).Perm (pre.map (·.fd) ++ post.map (·.fd)) := by
                  have := (List.perm_middle (a := c.fd) (l₁ := pre.map (·.fd)) (l₂ := post.map (·.fd))).erase c.fd
                  rwa [List.erase_cons_head] at this
                exact (h1.trans h2).trans hperm.symm
            have key : ∃ rest : List Client, pre ++ swapOut post = (pre ++ (swapOut post).take 1) ++ rest ∧
                (∀ d ∈ rest, d ∈ post) ∧ rest.length ≤ fuel := by
              rcases List.eq_nil_or_concat post with rfl | ⟨m, l, rfl⟩
              · exact ⟨[], by simp [swapOut_nil], by simp, by simp⟩
              · rw [List.concat_eq_append, swapOut_snoc]
                refine ⟨m, by simp, fun d hd => by simp [hd], ?_⟩
                simp at hl; omega
            obtain ⟨rest, hk1, hk2, hk3⟩ := key
            have hlast : ∀ d ∈ post, d ∈ rest ∨ d ∈ (swapOut post).take 1 := by
              intro d hd
              have h1 : d ∈ swapOut post := (swapOut_perm post).mem_iff.2 hd
              have h2 : swapOut post = (swapOut post).take 1 ++ rest := by
                have : pre ++ swapOut post = pre ++ ((swapOut post).take 1 ++ rest) := by rw [hk1]; simp
                exact List.append_cancel_left this
              rw [h2] at h1
              rcases List.mem_append.1 h1 with h3 | h3
              · exact Or.inr h3
              · exact Or.inl h3
            have hread : Hub.read L ready env fuel s2 { table := pre ++ swapOut post, opened := h.opened.erase c.fd }
                (pre ++ (swapOut post).take 1).length = some (s3, h3, l3) := by
              cases hsw : swapOut post with
              | nil =>
                rw [hsw] at hr2
                cases fuel with
                | zero => simpa [Hub.read] using hr2
                | succ f =>
                  rw [Hub.read] at hr2 ⊢
                  simpa using hr2
              | cons a as => rw [hsw] at hr2; simpa using hr2
            have := ih s2 _ (pre ++ (swapOut post).take 1) rest s3 h3 l3 hk1 hk3 hok2 hread
            have hrest : ∀ f ∈ rest.map (·.fd), f ∈ post.map (·.fd) := by
              intro f hf
              obtain ⟨d, hd, rfl⟩ := List.mem_map.1 hf
              exact List.mem_map_of_mem (hk2 d hd)
            have hnot : c.fd ∉ l3 := fun hm => hcpost (hrest _ (this.was _ hm).2)
            have hsub : ∀ d ∈ h3.table, d.fd ∈ (pre ++ swapOut post).map (·.fd) := this.sub
            have hgone : c.fd ∉ Hub.fds h3 := fun hm => by
              obtain ⟨d, hd, he⟩ := List.mem_map.1 hm
              exact hcout (he ▸ hsub d hd)
            refine ⟨this.ok, ?_, ?_, ?_, ?_, ?_, ?_, ?_⟩
            · intro d hd
              have := hperm.mem_iff.1 (hsub d hd)
              rw [fds_append h _ _ ht, List.map_cons]
              rcases List.mem_append.1 this with h1 | h1
              · exact List.mem_append_left _ h1
              · exact List.mem_append_right _ (List.mem_cons_of_mem _ h1)
            · intro f hf
              rcases List.mem_cons.1 hf with rfl | hf
              · exact ⟨hrd, by simp⟩
              · exact ⟨(this.was f hf).1, by
                  have := hrest _ (this.was f hf).2; rw [List.map_cons]; exact List.mem_cons_of_mem _ this⟩
            · exact List.nodup_cons.2 ⟨hnot, this.once⟩
            · intro d hd hn
              refine this.other d ?_ (fun hm => hn (List.mem_cons_of_mem _ hm))
              rw [ht] at hd
              simp only [List.mem_append, List.mem_cons] at hd ⊢
              rcases hd with hd | rfl | hd
              · exact Or.inl hd
              · exact absurd (List.mem_cons_self ..) hn
              · exact Or.inr ((swapOut_perm post).mem_iff.2 hd)
            · intro d hd hrdy
              exact Or.inr ⟨c.fd, List.mem_cons_self .., hgone⟩
            · intro hg
              exact absurd (hg c.fd (List.mem_cons_self ..)) hgone
            · intro d hd hm
              rcases List.mem_cons.1 hd with rfl | hd
              · exact ⟨s, s2, k, false, hs, (fun h => by cases h), fun _ => hgone⟩
              · have hne : d.fd ≠ c.fd := fun he => hcpost (he ▸ List.mem_map_of_mem hd)
                rcases List.mem_cons.1 hm with h1 | h1
                · exact absurd h1 hne
                · have h2 : d ∈ rest := by
                    rcases hlast d hd with h2 | h2
                    · exact h2
                    · exfalso
                      have h3 := (this.was _ h1).2
                      have h4 := hnd
                      rw [hk1, List.map_append] at h4
                      exact (List.nodup_append.1 h4).2.2 _ (List.mem_map_of_mem (List.mem_append_right _ h2)) _ h3 rfl
                  exact this.result d h2 h1
      · rw [if_neg hrd] at hr
        have := ih s h (pre ++ [c]) post s' h' served (by simp [ht]) (by simp at hl; omega) hok (by simpa using hr)
        have hnot : c.fd ∉ served := fun hm => hcpost (this.was _ hm).2
        refine ⟨this.ok, this.sub, ?_, this.once, this.other, ?_, ?_, ?_⟩
        · intro f hf
          exact ⟨(this.was f hf).1, by have := (this.was f hf).2; rw [List.map_cons]; exact List.mem_cons_of_mem _ this⟩
        · intro d hd hrdy
          rcases List.mem_cons.1 hd with rfl | hd
          · exact absurd hrdy hrd
          · exact this.done d hd hrdy
        · intro hg
          rw [List.map_cons, List.filter_cons_of_neg hrd]
          exact this.all hg
        · intro d hd hm
          rcases List.mem_cons.1 hd with rfl | hd
          · exact absurd hm hnot
          · exact this.result d hd hm

theorem accept_ok {h : Hub} (hok : HubOk h) (a : Accepted)
    (hf : ∀ fd g s w, a = .conn fd g s w → fd ∉ h.opened) : HubOk (h.accept a) := by
  cases a with
  | fail => exact hok
  | conn fd g s w =>
    have hfd := hf fd g s w rfl
    have hcl : Hub.close { h with opened := fd :: h.opened } fd = h := by
      unfold Hub.close; simp
    unfold Hub.accept
    simp only
    rw [hcl]
    split
    · exact hok
    · next hlen =>
      split
      · exact hok
      · split
        · exact hok
        · refine ⟨?_, ?_, ?_⟩
          · simp [MAX_LOCAL_SOCKETS] at hlen ⊢; omega
          · unfold Hub.fds
            rw [List.map_append]
            refine List.nodup_append.2 ⟨hok.distinct, by simp, ?_⟩
            intro x hx y hy
            simp at hy
            rintro rfl
            subst hy
            exact hfd (hok.opened.mem_iff.2 hx)
          · unfold Hub.fds
            rw [List.map_append]
            exact (hok.opened.cons fd).trans (List.perm_append_singleton fd _).symm

theorem accepts_ok {h : Hub} (hok : HubOk h) {r : Round} (hf : FreshFd h r) : HubOk (h.accepts r) := by
  unfold Hub.accepts
  cases ha : r.accepted with
  | none => exact hok
  | some a =>
    simp only
    split
    · exact accept_ok hok a (fun fd g s w he => hf fd g s w (by rw [ha, he]))
    · exact hok

theorem round_spec {L : Libc} {r : Round} {s s' : Conf} {h h' : Hub} {l : List Nat} (hok : HubOk h) (hf : FreshFd h r)
    (hr : Hub.round L r s h = some (s', h', l)) :
    ReadSpec L (fun fd => r.ready fd && h.watched fd) r.env (h.accepts r) (h.accepts r).table h' l := by
  unfold Hub.round at hr
  exact read_spec L _ r.env _ s (h.accepts r) [] _ s' h' l (by simp) (Nat.le_refl _) (accepts_ok hok hf) hr

end Babel
