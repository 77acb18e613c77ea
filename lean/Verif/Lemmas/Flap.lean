import Verif.Lemmas.Keys2
/-
Interfaces that go down and come up.
-/
set_option linter.unusedSimpArgs false
set_option linter.unusedVariables false
set_option linter.unusedSectionVars false
namespace Babel
open Spec

/-- The parameters of an interface, except whether it is up. -/
def Iface.core (x : Iface) : Iface := { x.fixed with up := true }

theorem core_of_fixed {s s0 : St} (h : s.ifaces.map Iface.fixed = s0.ifaces.map Iface.fixed) :
    s.ifaces.map Iface.core = s0.ifaces.map Iface.core := by
  have h := congrArg (List.map fun x : Iface => { x with up := true }) h
  rw [List.map_map, List.map_map] at h
  exact h

theorem getIf_fixed {s s0 : St} (h : s.ifaces.map Iface.fixed = s0.ifaces.map Iface.fixed) (i : IfId) :
    (getIf s i).map Iface.fixed = (getIf s0 i).map Iface.fixed := by
  have key : ∀ l : List Iface, (l.find? (·.ifindex == i)).map Iface.fixed = (l.map Iface.fixed).find? (·.ifindex == i) := by
    intro l
    rw [List.find?_map]
    rfl
  unfold getIf
  rw [key, key, h]

theorem getIf_core {s s0 : St} (h : s.ifaces.map Iface.core = s0.ifaces.map Iface.core) (i : IfId) :
    (getIf s i).map Iface.core = (getIf s0 i).map Iface.core := by
  have key : ∀ l : List Iface, (l.find? (·.ifindex == i)).map Iface.core = (l.map Iface.core).find? (·.ifindex == i) := by
    intro l
    rw [List.find?_map]
    rfl
  unfold getIf
  rw [key, key, h]

theorem ifUp_fixed {s s0 : St} (h : s.ifaces.map Iface.fixed = s0.ifaces.map Iface.fixed) (i : IfId) : ifUp s i = ifUp s0 i := by
  have h := getIf_fixed h i
  unfold ifUp
  cases h1 : getIf s i with
  | none =>
    rw [h1] at h
    cases h2 : getIf s0 i with
    | none => rfl
    | some y => rw [h2] at h; cases h
  | some x =>
    rw [h1] at h
    cases h2 : getIf s0 i with
    | none => rw [h2] at h; cases h
    | some y =>
      rw [h2] at h
      have h := Option.some.inj h
      exact congrArg (fun z => z.up) h

/-- An interface goes down or comes up. -/
structure Flap (P X : PKey → Prop) (I : Bytes → Prop) (i : IfId) (b : Bool) (s s' : St) : Prop where
  keys : Keys P X I s'
  now : s'.now = s.now
  core : s'.ifaces.map Iface.core = s.ifaces.map Iface.core
  up : ∀ i', ifUp s' i' = if i' = i ∧ (getIf s i).isSome then b else ifUp s i'
  out : ∃ new, s'.out = new ++ s.out

section
variable {c : Cfg} {P X : PKey → Prop} {I : Bytes → Prop}

theorem flap_set {s : St} (h : Keys P X I s) (i : IfId) (b : Bool) :
    Flap P X I i b s (modIf s i fun x => { x with up := b }) := by
  refine ⟨⟨h.routes, h.xroutes, ?_, h.resends, h.out⟩, rfl, ?_, ?_, [], rfl⟩
  · intro f hf k hk
    obtain ⟨g, hg, rfl⟩ := List.mem_map.1 hf
    split at hk
    · exact h.queue g hg k hk
    · exact h.queue g hg k hk
  · show (s.ifaces.map _).map _ = _
    rw [List.map_map]
    refine List.map_congr_left fun x hx => ?_
    show Iface.core (if _ then _ else _) = _
    split <;> rfl
  · intro i'
    have hf : getIf (modIf s i fun x => { x with up := b }) i' = (getIf s i').map fun x => if x.ifindex == i then { x with up := b } else x := by
      unfold getIf modIf
      rw [List.find?_map]
      congr 1
      congr 1
      funext x
      show ((if (x.ifindex == i) = true then { x with up := b } else x : Iface).ifindex == i') = _
      split <;> rfl
    unfold ifUp
    rw [hf]
    cases hg : getIf s i' with
    | none =>
      simp only [Option.map_none]
      by_cases he : i' = i ∧ (getIf s i).isSome = true
      · rw [← he.1, hg] at he
        cases he.2
      · rw [if_neg he]
    | some x =>
      have hx : x.ifindex = i' := by
        have := List.find?_some hg
        simpa using this
      simp only [Option.map_some]
      by_cases he : i' = i
      · subst he
        simp [hx, hg]
      · simp [hx, he]

theorem Flap.tame {i : IfId} {b : Bool} {s s1 s2 : St} (h : Flap P X I i b s s1) (t : Tame P X I s1 s2) : Flap P X I i b s s2 := by
  obtain ⟨n1, e1⟩ := h.out
  obtain ⟨n2, e2⟩ := t.out
  exact ⟨t.keys, t.now.trans h.now, (core_of_fixed t.ifs).trans h.core, fun i' => by rw [ifUp_fixed t.ifs, h.up],
    n2 ++ n1, by rw [e2, e1, List.append_assoc]⟩

theorem tame_clear {s : St} (h : Keys P X I s) (i : IfId) : Tame P X I s (modIf s i fun x => { x with queue := [], queueCap := 0 }) := by
  refine ⟨⟨h.routes, h.xroutes, ?_, h.resends, h.out⟩, rfl, rfl, ?_, [], rfl⟩
  · intro f hf k hk
    obtain ⟨g, hg, rfl⟩ := List.mem_map.1 hf
    split at hk
    · cases hk
    · exact h.queue g hg k hk
  · show (s.ifaces.map _).map _ = _
    rw [List.map_map]
    refine List.map_congr_left fun x hx => ?_
    show Iface.fixed (if _ then _ else _) = _
    split <;> rfl

theorem flap_down (R : Rules c P X I) {s : St} (h : Keys P X I s) (i : IfId) : Flap P X I i false s (step c s (.ifDown i)) := by
  have h1 := flap_set h i false
  have h2 : Tame P X I (modIf s i fun x => { x with up := false })
      (flushInterfaceRoutes c (modIf s i fun x => { x with up := false }) i false) := tame_flushWhere R _ h1.keys
  exact (h1.tame h2).tame (tame_clear h2.keys i)

theorem flap_up (R : Rules c P X I) {s : St} (h : Keys P X I s) (i : IfId) (full : Bool) : Flap P X I i true s (step c s (.ifUp i full)) := by
  have h1 := flap_set h i true
  have h2 : Tame P X I (modIf s i fun x => { x with up := true })
      (announceUp c (modIf s i fun x => { x with up := true }) i full) := by
    unfold announceUp
    split
    · exact tame_sendAny R h1.keys i false
    · exact .refl h1.keys
  refine (h1.tame h2).tame ?_
  show Tame P X I _ (sendMulticastRequestIf c _ i none)
  exact tame_mcRequestIf R h2.keys i nofun

end
end Babel
