import Verif.Lemmas.Config
/-
Filters: from the text of a rule to the filter, and from the filter to its meaning.
-/
set_option linter.unusedSimpArgs false
set_option linter.unusedVariables false
namespace Babel
open Spec

/-! ### Text to filter -/

/-- What a clause does to a filter, apart from the address family. -/
def FClause.put (L : Libc) (f : Filter) : FClause → Filter
  | .ip p n _ => { f with dst := some (p, n) }
  | .srcIp p n _ => { f with src := some (p, n) }
  | .eq n => { f with plenGe := uchar (max f.plenGe n), plenLe := uchar (min f.plenLe n) }
  | .le n => { f with plenLe := uchar (min f.plenLe n) }
  | .ge n => { f with plenGe := uchar (max f.plenGe n) }
  | .srcEq n => { f with srcGe := uchar (max f.srcGe n), srcLe := uchar (min f.srcLe n) }
  | .srcLe n => { f with srcLe := uchar (min f.srcLe n) }
  | .srcGe n => { f with srcGe := uchar (max f.srcGe n) }
  | .neigh a => { f with neigh := some a }
  | .id a => { f with id := some a }
  | .proto n => { f with proto := n }
  | .locl => { f with proto := RTPROT_BABEL_LOCAL }
  | .ifname s => { f with ifname := some s, ifindex := L.ifindex s }
  | .allow => { f with action := { f.action with addMetric := 0 } }
  | .deny => { f with action := { f.action with addMetric := INFINITY } }
  | .metric n => { f with action := { f.action with addMetric := n } }
  | .srcPrefix p n _ => { f with action := { f.action with src := some (p, n) } }
  | .table n => { f with action := { f.action with table := n } }
  | .prefSrc a _ => { f with action := { f.action with prefSrc := some a } }

/-- What a clause does to a filter. -/
def FClause.step (L : Libc) (f : Filter) (c : FClause) : Except Fail Filter :=
  match c.af with
  | none => .ok (FClause.put L f c)
  | some a => (FClause.put L f c).setAf a

theorem word_kw : ∀ kw ∈ (filterWords.map (·.1) ++ ifWords.map (·.1) ++ keyWords.map (·.1) ++
    optionWords.map (·.1) ++ lineWords.map (·.1)), Word (ascii kw) := by
  unfold Word BlankC
  decide

theorem bind_ok {α β : Type} {x : Except Fail α} {a : α} (h : x = .ok a) (f : α → Except Fail β) :
    (x >>= f) = f a := by rw [h]; rfl

theorem filterClause_text {L : Libc} (hL : LibcOk L) {c : FClause} {t : Bytes} (h : FText L c t) :
    ∃ kw k body, t = ascii kw ++ body ∧ kw ∈ filterWords.map (·.1) ∧ keyword filterWords (ascii kw) = some k ∧
      ∀ r, Stop r → Stop (body ++ r) ∧
        ∀ f, filterClause L f k (body ++ r) = (FClause.step L f c).map (·, r) := by
  cases h with
  | ip hg hw hn =>
    refine ⟨"ip", .ip, _, rfl, by decide, by decide, fun r hr => ⟨by rw [List.append_assoc]; exact hg.stop _, fun f => ?_⟩⟩
    unfold filterClause
    simp only
    rw [List.append_assoc, bind_ok (getnet_text hL hg.2 hw hn hr)]
    simp only [FClause.step, FClause.af, FClause.put]
    cases Filter.setAf _ _ <;> rfl
  | srcIp hg hw hn =>
    refine ⟨"src-ip", .srcIp, _, rfl, by decide, by decide, fun r hr => ⟨by rw [List.append_assoc]; exact hg.stop _, fun f => ?_⟩⟩
    unfold filterClause
    simp only
    rw [List.append_assoc, bind_ok (getnet_text hL hg.2 hw hn hr)]
    simp only [FClause.step, FClause.af, FClause.put]
    cases Filter.setAf _ _ <;> rfl
  | eq hg hw hn =>
    refine ⟨"eq", .eq, _, rfl, by decide, by decide, fun r hr => ⟨by rw [List.append_assoc]; exact hg.stop _, fun f => ?_⟩⟩
    unfold filterClause
    simp only
    rw [List.append_assoc, bind_ok (getint_text hg.2 hw hn hr)]
    rfl
  | le hg hw hn =>
    refine ⟨"le", .le, _, rfl, by decide, by decide, fun r hr => ⟨by rw [List.append_assoc]; exact hg.stop _, fun f => ?_⟩⟩
    unfold filterClause
    simp only
    rw [List.append_assoc, bind_ok (getint_text hg.2 hw hn hr)]
    rfl
  | ge hg hw hn =>
    refine ⟨"ge", .ge, _, rfl, by decide, by decide, fun r hr => ⟨by rw [List.append_assoc]; exact hg.stop _, fun f => ?_⟩⟩
    unfold filterClause
    simp only
    rw [List.append_assoc, bind_ok (getint_text hg.2 hw hn hr)]
    rfl
  | srcEq hg hw hn =>
    refine ⟨"src-eq", .srcEq, _, rfl, by decide, by decide, fun r hr => ⟨by rw [List.append_assoc]; exact hg.stop _, fun f => ?_⟩⟩
    unfold filterClause
    simp only
    rw [List.append_assoc, bind_ok (getint_text hg.2 hw hn hr)]
    rfl
  | srcLe hg hw hn =>
    refine ⟨"src-le", .srcLe, _, rfl, by decide, by decide, fun r hr => ⟨by rw [List.append_assoc]; exact hg.stop _, fun f => ?_⟩⟩
    unfold filterClause
    simp only
    rw [List.append_assoc, bind_ok (getint_text hg.2 hw hn hr)]
    rfl
  | srcGe hg hw hn =>
    refine ⟨"src-ge", .srcGe, _, rfl, by decide, by decide, fun r hr => ⟨by rw [List.append_assoc]; exact hg.stop _, fun f => ?_⟩⟩
    unfold filterClause
    simp only
    rw [List.append_assoc, bind_ok (getint_text hg.2 hw hn hr)]
    rfl
  | neigh hg hw hn =>
    refine ⟨"neigh", .neigh, _, rfl, by decide, by decide, fun r hr => ⟨by rw [List.append_assoc]; exact hg.stop _, fun f => ?_⟩⟩
    unfold filterClause
    simp only
    rw [List.append_assoc, bind_ok (getip_text hL hg.2 hw hn hr)]
    rfl
  | id hg hw hn =>
    refine ⟨"id", .id, _, rfl, by decide, by decide, fun r hr => ⟨by rw [List.append_assoc]; exact hg.stop _, fun f => ?_⟩⟩
    unfold filterClause
    simp only
    rw [List.append_assoc, bind_ok (getid_text hg.2 hw hn hr)]
    rfl
  | proto hg hw hn =>
    refine ⟨"proto", .proto, _, rfl, by decide, by decide, fun r hr => ⟨by rw [List.append_assoc]; exact hg.stop _, fun f => ?_⟩⟩
    unfold filterClause
    simp only
    rw [List.append_assoc, bind_ok (getint_text hg.2 hw hn hr)]
    rfl
  | locl => exact ⟨"local", .locl, [], rfl, by decide, by decide, fun r hr => ⟨hr, fun f => rfl⟩⟩
  | ifname hg hw =>
    refine ⟨"if", .ifname, _, rfl, by decide, by decide, fun r hr => ⟨by rw [List.append_assoc]; exact hg.stop _, fun f => ?_⟩⟩
    unfold filterClause
    simp only
    rw [List.append_assoc, bind_ok (getstring_text _ _ _ _ hg.2 hw hr)]
    rfl
  | allow => exact ⟨"allow", .allow, [], rfl, by decide, by decide, fun r hr => ⟨hr, fun f => rfl⟩⟩
  | deny => exact ⟨"deny", .deny, [], rfl, by decide, by decide, fun r hr => ⟨hr, fun f => rfl⟩⟩
  | metric hg hw h0 hn =>
    refine ⟨"metric", .metric, _, rfl, by decide, by decide, fun r hr => ⟨by rw [List.append_assoc]; exact hg.stop _, fun f => ?_⟩⟩
    have hi : INFINITY < 2147483648 := by decide
    unfold filterClause
    simp only
    rw [List.append_assoc, bind_ok (getint_text hg.2 hw (by omega) hr)]
    simp only
    rw [if_neg (by omega)]
    rfl
  | srcPrefix hg hw hn =>
    refine ⟨"src-prefix", .srcPrefix, _, rfl, by decide, by decide, fun r hr => ⟨by rw [List.append_assoc]; exact hg.stop _, fun f => ?_⟩⟩
    unfold filterClause
    simp only
    rw [List.append_assoc, bind_ok (getnet_text hL hg.2 hw hn hr)]
    simp only [FClause.step, FClause.af, FClause.put]
    cases Filter.setAf _ _ <;> rfl
  | table hg hw h0 hn =>
    refine ⟨"table", .table, _, rfl, by decide, by decide, fun r hr => ⟨by rw [List.append_assoc]; exact hg.stop _, fun f => ?_⟩⟩
    have hi : INFINITY < 2147483648 := by decide
    unfold filterClause
    simp only
    rw [List.append_assoc, bind_ok (getint_text hg.2 hw (by omega) hr)]
    simp only
    rw [if_neg (by omega)]
    rfl
  | prefSrc hg hw hn =>
    refine ⟨"pref-src", .prefSrc, _, rfl, by decide, by decide, fun r hr => ⟨by rw [List.append_assoc]; exact hg.stop _, fun f => ?_⟩⟩
    unfold filterClause
    simp only
    rw [List.append_assoc, bind_ok (getip_text hL hg.2 hw hn hr)]
    simp only [FClause.step, FClause.af, FClause.put]
    cases Filter.setAf _ _ <;> rfl

theorem Spec.Clauses.stop {α : Type} {T : α → Bytes → Prop} {l : List α} {t e rest : Bytes} (h : Clauses T l t)
    (he : Ends e rest) : Stop (t ++ (e ++ rest)) := by
  cases h with
  | nil => exact he.stop
  | cons hg h1 h2 => rw [List.append_assoc]; exact hg.stop _

theorem filterLoop_text {L : Libc} (hL : LibcOk L) {l : List FClause} {t e rest : Bytes}
    (h : Clauses (FText L) l t) (he : Ends e rest) (fuel : Nat) (f : Filter) (hf : t.length < fuel) :
    filterLoop L fuel f (t ++ (e ++ rest)) = (l.foldlM (FClause.step L) f).map (·, rest) := by
  induction h generalizing fuel f with
  | nil =>
    rcases fuel with _ | fuel
    · simp at hf
    · unfold filterLoop
      rw [List.nil_append, if_pos he.skip.1, he.skip.2]
      rfl
  | @cons x xs g t u hg ht hu ih =>
    rcases fuel with _ | fuel
    · simp at hf
    · obtain ⟨kw, k, body, rfl, hkw, hk, hb⟩ := filterClause_text hL ht
      have hword := word_kw kw (by simp only [List.mem_append]; simp_all)
      obtain ⟨hs1, hs2⟩ := hb (u ++ (e ++ rest)) (hu.stop he)
      have e1 : g ++ (ascii kw ++ body ++ u) ++ (e ++ rest) = g ++ (ascii kw ++ (body ++ (u ++ (e ++ rest)))) := by
        simp only [List.append_assoc]
      have hl : u.length < fuel := by
        have := hg.1
        simp only [List.length_append] at hf
        rcases g with _ | ⟨c, g⟩
        · exact absurd rfl this
        · simp only [List.length_cons] at hf; omega
      unfold filterLoop
      rw [e1]
      simp only [skipWs_lexeme g _ _ hg.2 hword]
      rw [if_neg (by rw [atEol_word _ hword]; simp), bind_ok (getword_word _ _ hword hs1)]
      simp only [hk]
      rw [hs2]
      rw [List.foldlM_cons]
      cases FClause.step L f x with
      | error e => rfl
      | ok f' => exact ih fuel f' hl

/-! ### Address families -/

theorem put_af {L : Libc} (f : Filter) (c : FClause) : (FClause.put L f c).af = f.af := by
  cases c <;> rfl

theorem put_withAf {L : Libc} (f : Filter) (c : FClause) (a : Option Af) :
    FClause.put L { f with af := a } c = { FClause.put L f c with af := a } := by
  cases c <;> rfl

theorem foldl_put_af {L : Libc} (l : List FClause) (f : Filter) :
    (l.foldl (FClause.put L) f).af = f.af := by
  induction l generalizing f with
  | nil => rfl
  | cons c l ih => rw [List.foldl_cons, ih, put_af]

theorem foldl_put_withAf {L : Libc} (l : List FClause) (f : Filter) (a : Option Af) :
    l.foldl (FClause.put L) { f with af := a } = { l.foldl (FClause.put L) f with af := a } := by
  induction l generalizing f with
  | nil => rfl
  | cons c l ih => rw [List.foldl_cons, put_withAf, ih]; rfl

theorem step_none {L : Libc} {f : Filter} {c : FClause} (hc : c.af = none) :
    FClause.step L f c = .ok (FClause.put L f c) := by unfold FClause.step; rw [hc]

theorem step_fresh {L : Libc} {f : Filter} {c : FClause} {a : Af} (hc : c.af = some a) (hf : f.af = none) :
    FClause.step L f c = .ok { FClause.put L f c with af := some a } := by
  unfold FClause.step; rw [hc]; simp only [Filter.setAf, put_af, hf]

theorem lexStep_same {L : Libc} {f : Filter} {c : FClause} {a : Af} (hc : c.af = some a) (hf : f.af = some a) :
    FClause.step L f c = .ok (FClause.put L f c) := by
  unfold FClause.step; rw [hc]; simp only [Filter.setAf, put_af, hf, if_true]

theorem step_diff {L : Libc} {f : Filter} {c : FClause} {a b : Af} (hc : c.af = some a) (hf : f.af = some b)
    (h : b ≠ a) : FClause.step L f c = .error .bad := by
  unfold FClause.step; rw [hc]; simp only [Filter.setAf, put_af, hf, if_neg h]

theorem steps_ok {L : Libc} (l : List FClause) (f : Filter) (hag : Agree l)
    (hf : ∀ a, f.af = some a → ∀ c ∈ l, ∀ b, c.af = some b → b = a) :
    l.foldlM (FClause.step L) f =
      .ok { l.foldl (FClause.put L) f with af := f.af.or (l.findSome? FClause.af) } := by
  induction l generalizing f with
  | nil =>
    simp only [List.foldlM_nil, List.foldl_nil, List.findSome?_nil, Option.or_none]
    rfl
  | cons c l ih =>
    have hag' : Agree l := fun c hc d hd => hag c (by simp [hc]) d (by simp [hd])
    rw [List.foldlM_cons, List.foldl_cons, List.findSome?_cons]
    rcases hc : c.af with _ | a
    · rw [bind_ok (step_none hc)]
      simp only
      rw [ih _ hag' (by rw [put_af]; intro a ha d hd; exact hf a ha d (by simp [hd])), put_af]
    · rcases hfa : f.af with _ | a'
      · rw [bind_ok (step_fresh hc hfa)]
        rw [ih _ hag' (by
          intro a' ha' d hd b hb
          simp only [Option.some.injEq] at ha'
          subst ha'
          exact hag d (by simp [hd]) c (by simp) b a hb hc)]
        rw [foldl_put_withAf]
        simp
      · have : a = a' := hf a' hfa c (by simp) a hc
        subst this
        rw [bind_ok (lexStep_same hc hfa)]
        rw [ih _ hag' (by rw [put_af]; intro a ha d hd; exact hf a ha d (by simp [hd])), put_af, hfa]
        simp

/-- The families disagree: the rule is rejected. -/
theorem steps_bad {L : Libc} (l : List FClause) (f : Filter)
    (h : ¬ Agree l ∨ ∃ a, f.af = some a ∧ ∃ c ∈ l, ∃ b, c.af = some b ∧ b ≠ a) :
    l.foldlM (FClause.step L) f = .error .bad := by
  induction l generalizing f with
  | nil =>
    rcases h with h | ⟨a, h1, c, h2, h3⟩
    · exact absurd (fun c hc => by simp at hc) h
    · simp at h2
  | cons c l ih =>
    rw [List.foldlM_cons]
    rcases hc : c.af with _ | a
    · rw [bind_ok (step_none hc)]
      refine ih _ ?_
      rcases h with h | ⟨a, h1, d, h2, b, h3, h4⟩
      · left
        intro hag
        apply h
        intro x hx y hy p q hp hq
        simp only [List.mem_cons] at hx hy
        rcases hx with rfl | hx
        · rw [hc] at hp; simp at hp
        rcases hy with rfl | hy
        · rw [hc] at hq; simp at hq
        exact hag x hx y hy p q hp hq
      · right
        simp only [List.mem_cons] at h2
        rcases h2 with rfl | h2
        · rw [hc] at h3; simp at h3
        · exact ⟨a, by rw [put_af]; exact h1, d, h2, b, h3, h4⟩
    · rcases hfa : f.af with _ | a'
      · rw [bind_ok (step_fresh hc hfa)]
        refine ih _ ?_
        rcases h with h | ⟨a, h1, _⟩
        · by_cases hag : Agree l
          · right
            refine ⟨a, rfl, ?_⟩
            refine Classical.byContradiction fun hn => h ?_
            have hn' : ∀ d ∈ l, ∀ b, d.af = some b → b = a := by
              intro d hd b hb
              refine Classical.byContradiction fun hne => hn ⟨d, hd, b, hb, hne⟩
            have hn2 : ∀ d ∈ c :: l, ∀ b, d.af = some b → b = a := by
              intro d hd b hb
              simp only [List.mem_cons] at hd
              rcases hd with rfl | hd
              · rw [hc] at hb; simpa using hb.symm
              · exact hn' d hd b hb
            intro x hx y hy p q hp hq
            rw [hn2 x hx p hp, hn2 y hy q hq]
          · exact .inl hag
        · rw [hfa] at h1; simp at h1
      · by_cases haa : a' = a
        · subst haa
          rw [bind_ok (lexStep_same hc hfa)]
          refine ih _ ?_
          by_cases hag : Agree l
          · right
            refine ⟨a', by rw [put_af]; exact hfa, ?_⟩
            refine Classical.byContradiction fun hn => ?_
            have hn' : ∀ d ∈ l, ∀ b, d.af = some b → b = a' := by
              intro d hd b hb
              refine Classical.byContradiction fun hne => hn ⟨d, hd, b, hb, hne⟩
            have hn2 : ∀ d ∈ c :: l, ∀ b, d.af = some b → b = a' := by
              intro d hd b hb
              simp only [List.mem_cons] at hd
              rcases hd with rfl | hd
              · rw [hc] at hb; simpa using hb.symm
              · exact hn' d hd b hb
            rcases h with h | ⟨x, h1, d, h2, b, h3, h4⟩
            · exact h fun x hx y hy p q hp hq => by rw [hn2 x hx p hp, hn2 y hy q hq]
            · rw [hfa] at h1
              have h1 : a' = x := by simpa using h1
              subst h1
              exact h4 (hn2 d h2 b h3)
          · exact .inl hag
        · rw [step_diff hc hfa haa]
          rfl

/-! ### The value of each field -/

theorem lastOf_cons {α β : Type} (sel : α → Option β) (c : α) (l : List α) :
    lastOf sel (c :: l) = (lastOf sel l).or (sel c) := by
  unfold lastOf
  rw [List.filterMap_cons]
  rcases hc : sel c with _ | b
  · simp
  · simp only [List.getLast?_cons]
    rcases (l.filterMap sel).getLast? with _ | x <;> rfl

theorem lastOf_nil {α β : Type} (sel : α → Option β) : lastOf sel [] = none := rfl

theorem lastOf_append {α β : Type} (sel : α → Option β) (k l : List α) :
    lastOf sel (k ++ l) = (lastOf sel l).or (lastOf sel k) := by
  unfold lastOf
  rw [List.filterMap_append, List.getLast?_append]

theorem lastOf_mem {α β : Type} {sel : α → Option β} {l : List α} {b : β} (h : lastOf sel l = some b) :
    ∃ c ∈ l, sel c = some b := by
  have := List.mem_of_getLast? h
  simpa using this

theorem foldl_last {α β γ : Type} (put : γ → α → γ) (π : γ → β) (sel : α → Option β)
    (h : ∀ f c, π (put f c) = (sel c).getD (π f)) (l : List α) (f : γ) :
    π (l.foldl put f) = (lastOf sel l).getD (π f) := by
  induction l generalizing f with
  | nil => rfl
  | cons c l ih =>
    rw [List.foldl_cons, ih, lastOf_cons, h]
    cases lastOf sel l <;> rfl

theorem foldl_last' {α β γ : Type} (put : γ → α → γ) (π : γ → Option β) (sel : α → Option β)
    (h : ∀ f c, π (put f c) = (sel c).or (π f)) (l : List α) (f : γ) :
    π (l.foldl put f) = (lastOf sel l).or (π f) := by
  induction l generalizing f with
  | nil => rfl
  | cons c l ih =>
    rw [List.foldl_cons, ih, lastOf_cons, h]
    cases lastOf sel l <;> rfl

theorem uchar_max {a n : Nat} (ha : a ≤ 255) (hn : n ≤ 255) : uchar (max (a : Int) n) = max a n := by
  unfold uchar; omega

theorem uchar_min {a n : Nat} (ha : a ≤ 255) : uchar (min (a : Int) n) = min a n := by
  unfold uchar; omega

/-- Bounds on lengths after some clauses whose lengths are at most `B`. -/
structure Bounds (B : Nat) (f : Filter) (l : List FClause) (f0 : Filter) : Prop where
  ge : ∀ x, f.plenGe ≤ x ↔ f0.plenGe ≤ x ∧ (∀ n, .ge n ∈ l → n ≤ x) ∧ (∀ n, .eq n ∈ l → n ≤ x)
  le : ∀ x, x ≤ f.plenLe ↔ x ≤ f0.plenLe ∧ (∀ n, .le n ∈ l → x ≤ n) ∧ (∀ n, .eq n ∈ l → x ≤ n)
  sge : ∀ x, f.srcGe ≤ x ↔ f0.srcGe ≤ x ∧ (∀ n, .srcGe n ∈ l → n ≤ x) ∧ (∀ n, .srcEq n ∈ l → n ≤ x)
  sle : ∀ x, x ≤ f.srcLe ↔ x ≤ f0.srcLe ∧ (∀ n, .srcLe n ∈ l → x ≤ n) ∧ (∀ n, .srcEq n ∈ l → x ≤ n)
  geB : f.plenGe ≤ B
  leB : f.plenLe ≤ B ∨ f.plenLe = 128
  sgeB : f.srcGe ≤ B
  sleB : f.srcLe ≤ B ∨ f.srcLe = 128

theorem put_lengths {L : Libc} (f : Filter) (c : FClause) (h : ∀ n, c.length = some n → n ≤ 128)
    (h1 : f.plenGe ≤ 128) (h2 : f.plenLe ≤ 128) (h3 : f.srcGe ≤ 128) (h4 : f.srcLe ≤ 128) :
    ((FClause.put L f c).plenGe = match c with | .ge n | .eq n => max f.plenGe n | _ => f.plenGe) ∧
    ((FClause.put L f c).plenLe = match c with | .le n | .eq n => min f.plenLe n | _ => f.plenLe) ∧
    ((FClause.put L f c).srcGe = match c with | .srcGe n | .srcEq n => max f.srcGe n | _ => f.srcGe) ∧
    ((FClause.put L f c).srcLe = match c with | .srcLe n | .srcEq n => min f.srcLe n | _ => f.srcLe) := by
  cases c <;> simp only [FClause.put, true_and, and_true] <;> (first
    | trivial
    | (have := h _ rfl
       first
       | exact ⟨uchar_max (by omega) (by omega), uchar_min (by omega)⟩
       | exact uchar_max (by omega) (by omega)
       | exact uchar_min (by omega)))

theorem bounds_foldl {L : Libc} {B : Nat} (hB : B ≤ 128) (l : List FClause) (f : Filter)
    (h : ∀ c ∈ l, ∀ n, c.length = some n → n ≤ B)
    (h1 : f.plenGe ≤ B) (h2 : f.plenLe ≤ B ∨ f.plenLe = 128) (h3 : f.srcGe ≤ B)
    (h4 : f.srcLe ≤ B ∨ f.srcLe = 128) : Bounds B (l.foldl (FClause.put L) f) l f := by
  induction l generalizing f with
  | nil => constructor <;> simp_all
  | cons c l ih =>
    have hc : ∀ n, c.length = some n → n ≤ B := h c (by simp)
    obtain ⟨e1, e2, e3, e4⟩ := put_lengths (L := L) f c (fun n hn => by have := hc n hn; omega)
      (by omega) (by omega) (by omega) (by omega)
    have hb := ih (FClause.put L f c) (fun d hd => h d (by simp [hd]))
      (by rw [e1]; split <;> (first | (have := hc _ rfl; omega) | omega))
      (by rw [e2]; split <;> (first | (have := hc _ rfl; omega) | omega))
      (by rw [e3]; split <;> (first | (have := hc _ rfl; omega) | omega))
      (by rw [e4]; split <;> (first | (have := hc _ rfl; omega) | omega))
    rw [List.foldl_cons]
    refine ⟨fun x => ?_, fun x => ?_, fun x => ?_, fun x => ?_, hb.geB, hb.leB, hb.sgeB, hb.sleB⟩
    · rw [hb.ge, e1]
      cases c <;> simp [forall_and, or_imp] <;> grind
    · rw [hb.le, e2]
      cases c <;> simp [forall_and, or_imp] <;> grind
    · rw [hb.sge, e3]
      cases c <;> simp [forall_and, or_imp] <;> grind
    · rw [hb.sle, e4]
      cases c <;> simp [forall_and, or_imp] <;> grind

end Babel
