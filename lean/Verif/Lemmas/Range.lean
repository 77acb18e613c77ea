import Verif.Lemmas.Config9
import Verif.Spec.Range
/-
The values a configuration can have.
-/
set_option linter.unusedSimpArgs false
set_option linter.unusedVariables false
namespace Babel
open Spec

/-- If the parser succeeds, its result has the property. -/
def Yields {α : Type} (P : α → Prop) (x : Except Fail (α × Bytes)) : Prop := ∀ a r, x = .ok (a, r) → P a

theorem Yields.bind {α β : Type} {P : α → Prop} {Q : β → Prop} {x : Except Fail (α × Bytes)} {f : α × Bytes → Except Fail (β × Bytes)}
    (h : Yields P x) (hf : ∀ a r, P a → Yields Q (f (a, r))) : Yields Q (x >>= f) := by
  rcases x with e | ⟨a, r⟩
  · intro b r h; cases h
  · exact hf a r (h a r rfl)

theorem Yields.pure {α : Type} {P : α → Prop} {a : α} {r : Bytes} (h : P a) :
    Yields P (Pure.pure (a, r) : Except Fail (α × Bytes)) := by
  intro b u e
  cases e
  exact h

theorem Yields.throw {α : Type} {P : α → Prop} : Yields P (throw .bad : Except Fail (α × Bytes)) := by
  intro b u e
  cases e

theorem Yields.any {α : Type} (x : Except Fail (α × Bytes)) : Yields (fun _ => True) x := fun _ _ _ => trivial

theorem longToInt_range (x : Int) : -2147483648 ≤ longToInt x ∧ longToInt x < 2147483648 := by
  unfold longToInt toInt32
  split <;> omega

theorem getint_yields (inp : Bytes) : Yields (fun v => -2147483648 ≤ v ∧ v < 2147483648) (getint inp) := by
  unfold getint
  refine (Yields.any (getword inp)).bind fun a r _ => ?_
  simp only
  split
  · exact Yields.pure (longToInt_range _)
  · exact Yields.throw

theorem toInt32_range (n : Nat) (h : n < 4294967296) : toInt32 n < 2147483648 := by
  unfold toInt32
  split <;> omega

theorem parseThousands_range (t : Bytes) : parseThousands t < 2147483648 := by
  unfold parseThousands
  simp only
  split
  · apply toInt32_range
    unfold u32
    exact Nat.mod_lt _ (by decide)
  · decide

theorem getthousands_yields (inp : Bytes) : Yields (fun v => v < 2147483648) (getthousands inp) := by
  unfold getthousands
  refine (Yields.any (getword inp)).bind fun a r _ => ?_
  simp only
  split
  · exact Yields.throw
  · apply Yields.pure
    have := parseThousands_range a
    omega

theorem keyword_mem {α : Type} {l : List (String × α)} {w : Bytes} {v : α} (h : keyword l w = some v) : ∃ s, (s, v) ∈ l := by
  unfold keyword at h
  rw [Option.map_eq_some_iff] at h
  obtain ⟨⟨s, x⟩, h1, rfl⟩ := h
  exact ⟨s, List.mem_of_find?_eq_some h1⟩

theorem getbool_yields (inp : Bytes) : Yields (fun v => v ≤ 2) (getbool inp) := by
  unfold getbool
  refine (Yields.any (getword inp)).bind fun a r _ => ?_
  simp only
  split
  · rename_i v hv
    obtain ⟨s, hs⟩ := keyword_mem hv
    apply Yields.pure
    simp only [boolWords, List.mem_cons, Prod.mk.injEq, List.not_mem_nil, or_false] at hs
    omega
  · exact Yields.throw

theorem getIfType_yields (inp : Bytes) : Yields (fun v => v ≤ 3) (getIfType inp) := by
  unfold getIfType
  refine (Yields.any (getword inp)).bind fun a r _ => ?_
  simp only
  split
  · rename_i v hv
    obtain ⟨s, hs⟩ := keyword_mem hv
    apply Yields.pure
    simp only [typeWords, List.mem_cons, Prod.mk.injEq, List.not_mem_nil, or_false] at hs
    omega
  · exact Yields.throw

theorem parseAddress_range {L : Libc} (hL : LibcOk L) {w a : Bytes} {af : Af} (h : parseAddress L w = some (a, af)) :
    a.length = 16 := by
  unfold parseAddress at h
  split at h
  · rename_i x hx
    simp only [Option.some.injEq, Prod.mk.injEq] at h
    rw [← h.1, v4tov6_eq _ (hL.1 _ _ hx)]
    simp [mapped, hL.1 _ _ hx]
  · split at h
    · rename_i x hx
      simp only [Option.some.injEq, Prod.mk.injEq] at h
      rw [← h.1]; exact hL.2.1 _ _ hx
    · simp at h

theorem getip_yields {L : Libc} (hL : LibcOk L) (inp : Bytes) : Yields (fun x => x.1.length = 16) (getip L inp) := by
  unfold getip
  refine (Yields.any (getword inp)).bind fun a r _ => ?_
  simp only
  split
  · rename_i x hx
    exact Yields.pure (parseAddress_range hL hx)
  · exact Yields.throw

theorem getid_yields {L : Libc} (hL : LibcOk L) (inp : Bytes) : Yields (fun x => x.length = 8) (getid L inp) := by
  unfold getid
  refine (Yields.any (getword inp)).bind fun a r _ => ?_
  simp only
  split
  · rename_i x hx
    exact Yields.pure (hL.2.2 _ _ hx)
  · exact Yields.throw

theorem normalize_ok {a : Bytes} {n : Nat} (ha : a.length = 16) (hn : n ≤ 128) : NetOk (normalizePrefix a n, n) := by
  obtain ⟨h1, h2⟩ := C04_normalize_bits a n ha
  refine ⟨h1, hn, fun i h3 h4 => ?_⟩
  rw [h2 i h4]
  simp; omega

theorem parseNet_range {L : Libc} (hL : LibcOk L) {w p : Bytes} {n : Nat} {af : Af} (h : parseNet L w = some (p, n, af)) :
    NetOk (p, n) := by
  unfold parseNet at h
  split at h
  · simp only [Option.some.injEq, Prod.mk.injEq] at h
    obtain ⟨rfl, rfl, rfl⟩ := h
    refine ⟨rfl, by decide, fun i _ hi => ?_⟩
    have : ∀ i : Fin 128, bitAt zeroes16 i = false := by decide +kernel
    exact this ⟨i, hi⟩
  · split at h
    · split at h
      · rename_i hx
        simp only [Option.some.injEq, Prod.mk.injEq] at h
        obtain ⟨rfl, rfl, rfl⟩ := h
        exact normalize_ok (parseAddress_range hL hx) (by decide)
      · simp at h
    · simp only at h
      split at h
      · simp at h
      · split at h
        · rename_i a ha
          split at h
          · split at h
            · simp at h
            · simp only [Option.some.injEq, Prod.mk.injEq] at h
              obtain ⟨rfl, rfl, rfl⟩ := h
              refine normalize_ok ?_ (by omega)
              rw [v4tov6_eq _ (hL.1 _ _ ha)]
              simp [mapped, hL.1 _ _ ha]
          · simp at h
        · split at h
          · rename_i a ha
            split at h
            · split at h
              · simp at h
              · simp only [Option.some.injEq, Prod.mk.injEq] at h
                obtain ⟨rfl, rfl, rfl⟩ := h
                exact normalize_ok (hL.2.1 _ _ ha) (by omega)
            · simp at h
          · simp at h

theorem getnet_yields {L : Libc} (hL : LibcOk L) (inp : Bytes) : Yields (fun x => NetOk (x.1, x.2.1)) (getnet L inp) := by
  unfold getnet
  refine (Yields.any (getword inp)).bind fun a r _ => ?_
  simp only
  split
  · rename_i x hx
    exact Yields.pure (parseNet_range hL hx)
  · exact Yields.throw

/-! ### Filters -/

theorem ruleRange_start : RuleRange {} := by
  constructor <;> simp

theorem setAf_range {f : Filter} (h : RuleRange f) (af : Af) (r : Bytes) :
    Yields RuleRange (f.setAf af >>= fun g => (pure (g, r) : Except Fail (Filter × Bytes))) := by
  unfold Filter.setAf
  split
  · refine Yields.pure (P := RuleRange) ?_
    exact ⟨h.metric, h.table, h.dst, h.src, h.newSrc, h.neigh, h.prefSrc, h.id⟩
  · split
    · exact Yields.pure (P := RuleRange) h
    · intro a u e; cases e

theorem filterClause_yields {L : Libc} (hL : LibcOk L) {f : Filter} (h : RuleRange f) (k : FKw) (inp : Bytes) :
    Yields RuleRange (filterClause L f k inp) := by
  unfold filterClause
  cases k <;> simp only
  case ip => exact (getnet_yields hL inp).bind fun a r hr => setAf_range (f := _) (by exact ⟨h.metric, h.table, by intro x e; cases e; exact hr, h.src, h.newSrc, h.neigh, h.prefSrc, h.id⟩) _ _
  case srcIp => exact (getnet_yields hL inp).bind fun a r hr => setAf_range (f := _) (by exact ⟨h.metric, h.table, h.dst, by intro x e; cases e; exact hr, h.newSrc, h.neigh, h.prefSrc, h.id⟩) _ _
  case srcPrefix => exact (getnet_yields hL inp).bind fun a r hr => setAf_range (f := _) (by exact ⟨h.metric, h.table, h.dst, h.src, by intro x e; cases e; exact hr, h.neigh, h.prefSrc, h.id⟩) _ _
  case prefSrc => exact (getip_yields hL inp).bind fun a r hr => setAf_range (f := _) (by exact ⟨h.metric, h.table, h.dst, h.src, h.newSrc, h.neigh, by intro x e; cases e; exact hr, h.id⟩) _ _
  case neigh => exact (getip_yields hL inp).bind fun a r hr => Yields.pure ⟨h.metric, h.table, h.dst, h.src, h.newSrc, by intro x e; cases e; exact hr, h.prefSrc, h.id⟩
  case id => exact (getid_yields hL inp).bind fun a r hr => Yields.pure ⟨h.metric, h.table, h.dst, h.src, h.newSrc, h.neigh, h.prefSrc, by intro x e; cases e; exact hr⟩
  case ifname => exact (Yields.any (getstring inp)).bind fun a r hr => Yields.pure ⟨h.metric, h.table, h.dst, h.src, h.newSrc, h.neigh, h.prefSrc, h.id⟩
  case locl => exact Yields.pure ⟨h.metric, h.table, h.dst, h.src, h.newSrc, h.neigh, h.prefSrc, h.id⟩
  case allow => exact Yields.pure ⟨by simp, h.table, h.dst, h.src, h.newSrc, h.neigh, h.prefSrc, h.id⟩
  case deny => exact Yields.pure ⟨by simp [INFINITY], h.table, h.dst, h.src, h.newSrc, h.neigh, h.prefSrc, h.id⟩
  case metric =>
    refine (getint_yields inp).bind fun a r hr => ?_
    simp only
    split
    · exact Yields.throw
    · rename_i hc
      refine Yields.pure ⟨?_, h.table, h.dst, h.src, h.newSrc, h.neigh, h.prefSrc, h.id⟩
      unfold INFINITY at hc
      simp only
      omega
  case table =>
    refine (getint_yields inp).bind fun a r hr => ?_
    simp only
    split
    · exact Yields.throw
    · rename_i hc
      refine Yields.pure ⟨h.metric, ?_, h.dst, h.src, h.newSrc, h.neigh, h.prefSrc, h.id⟩
      unfold INFINITY at hc
      simp only
      omega
  all_goals exact (getint_yields inp).bind fun a r hr => Yields.pure ⟨h.metric, h.table, h.dst, h.src, h.newSrc, h.neigh, h.prefSrc, h.id⟩

theorem filterLoop_yields {L : Libc} (hL : LibcOk L) (fuel : Nat) {f : Filter} (h : RuleRange f) (inp : Bytes) :
    Yields RuleRange (filterLoop L fuel f inp) := by
  induction fuel generalizing f inp with
  | zero => intro a r e; cases e
  | succ fuel ih =>
    unfold filterLoop
    simp only
    split
    · exact Yields.pure (P := RuleRange) h
    · refine (Yields.any _).bind fun w r _ => ?_
      simp only
      split
      · exact Yields.throw
      · exact (filterClause_yields hL h _ _).bind fun g u hg => ih hg u

theorem parseFilter_yields {L : Libc} (hL : LibcOk L) (inp : Bytes) : Yields RuleRange (parseFilter L inp) := by
  unfold parseFilter
  refine (filterLoop_yields hL _ ruleRange_start inp).bind fun f r h => Yields.pure ?_
  obtain ⟨h1, h2, h3, h4, h5, h6, h7, h8⟩ := finishFilter_frame f
  constructor
  · rw [h8]; exact h.metric
  · rw [h8]; exact h.table
  · rw [h1]; exact h.dst
  · rw [h2]; exact h.src
  · rw [h8]; exact h.newSrc
  · rw [h3]; exact h.neigh
  · rw [h8]; exact h.prefSrc
  · rw [h4]; exact h.id

/-! ### Interfaces -/

theorem ifRange_start (keys : List KeyDef) (n : Bytes) : IfRange keys { name := n } := by
  constructor <;> simp

theorem ifClause_yields {keys : List KeyDef} {i : IfConf} (h : IfRange keys i) (k : IKw) (inp : Bytes) :
    Yields (IfRange keys) (ifClause keys i k inp) := by
  obtain ⟨h1, h2, h3, h4, h5, h6, h7, h8, h9, h10, h11, h12, h13, h14, h15, h16, h17, h18⟩ := h
  unfold ifClause
  cases k <;> simp only
  case type => exact (getIfType_yields inp).bind fun a r hr => Yields.pure (by constructor <;> assumption)
  case wired => exact (getbool_yields inp).bind fun a r hr => Yields.pure (by constructor <;> first | assumption | (simp only; split <;> omega))
  case key =>
    refine (Yields.any (getword inp)).bind fun a r hr => ?_
    simp only
    split
    · rename_i hk
      apply Yields.pure
      constructor <;> try assumption
      intro id e
      cases e
      simpa using hk
    · exact Yields.throw
  case rxcost =>
    refine (getint_yields inp).bind fun a r ha => ?_
    simp only
    split
    · exact Yields.throw
    · apply Yields.pure
      constructor <;> first | assumption | (simp only; omega)
  case rttDecay =>
    refine (getint_yields inp).bind fun a r ha => ?_
    simp only
    split
    · exact Yields.throw
    · apply Yields.pure
      constructor <;> first | assumption | (simp only; omega)
  case maxRttPenalty =>
    refine (getint_yields inp).bind fun a r ha => ?_
    simp only
    split
    · exact Yields.throw
    · apply Yields.pure
      constructor <;> first | assumption | (simp only; omega)
  case helloInterval =>
    refine (getthousands_yields inp).bind fun a r ha => ?_
    simp only
    split
    · exact Yields.throw
    · apply Yields.pure
      constructor <;> first | assumption | (simp only; omega)
  case updateInterval =>
    refine (getthousands_yields inp).bind fun a r ha => ?_
    simp only
    split
    · exact Yields.throw
    · apply Yields.pure
      constructor <;> first | assumption | (simp only; omega)
  case rttMin =>
    refine (getthousands_yields inp).bind fun a r ha => ?_
    simp only
    split
    · exact Yields.throw
    · apply Yields.pure
      constructor <;> first | assumption | (simp only; omega)
  case rttMax =>
    refine (getthousands_yields inp).bind fun a r ha => ?_
    simp only
    split
    · exact Yields.throw
    · apply Yields.pure
      constructor <;> first | assumption | (simp only; omega)
  all_goals exact (getbool_yields inp).bind fun a r hr => Yields.pure (by constructor <;> assumption)

theorem ifLoop_yields {keys : List KeyDef} (fuel : Nat) (b : Bool) {i : IfConf} (h : IfRange keys i) (inp : Bytes) :
    Yields (IfRange keys) (ifLoop keys fuel b i inp) := by
  induction fuel generalizing i inp b with
  | zero => intro a r e; cases e
  | succ fuel ih =>
    unfold ifLoop
    simp only
    split
    · exact Yields.pure (P := IfRange keys) h
    · split
      · intro a r e; cases e
      · split
        · intro a r e; cases e
        · exact (ifClause_yields h _ _).bind fun g u hg => ih true hg u

theorem parseIfconf_yields (keys : List KeyDef) (inp : Bytes) : Yields (IfRange keys) (parseIfconf keys inp) := by
  unfold parseIfconf
  simp only
  split
  · exact Yields.throw
  · exact (Yields.any _).bind fun a r _ => ifLoop_yields _ _ (ifRange_start keys a) _

theorem merge_range {keys : List KeyDef} {a b : IfConf} (ha : IfRange keys a) (hb : IfRange keys b) (d : IfConf) :
    IfRange keys (mergeIfconf d a b) := by
  obtain ⟨h1, h2, h3, h4, h5, h6, h7, h8, h9, h10, h11, h12, h13, h14, h15, h16, h17, h18⟩ := ha
  obtain ⟨g1, g2, g3, g4, g5, g6, g7, g8, g9, g10, g11, g12, g13, g14, g15, g16, g17, g18⟩ := hb
  unfold mergeIfconf
  constructor <;> simp only <;> split <;> assumption

theorem keyLoop_any (fuel : Nat) (k : KeyAcc) (inp : Bytes) : Yields (fun _ => True) (keyLoop fuel k inp) := fun _ _ _ => trivial

theorem parseKey_yields (inp : Bytes) : Yields KeyRange (parseKey inp) := by
  unfold parseKey
  refine (keyLoop_any _ _ _).bind fun a r _ => ?_
  simp only
  split
  · exact Yields.throw
  · split
    · split
      · exact Yields.throw
      · apply Yields.pure
        left
        simp only [List.length_append, List.length_replicate, true_and]
        omega
    · split
      · split
        · exact Yields.throw
        · apply Yields.pure
          right
          simp only [true_and]
          omega
      · exact Yields.throw

/-! ### Options -/

theorem optRange_start : OptRange {} := by
  constructor <;> simp [Port]

theorem getport_yields (inp : Bytes) : Yields (fun v => 1 ≤ v ∧ v ≤ 65534) (getport inp) := by
  unfold getport
  refine (getint_yields inp).bind fun a r ha => ?_
  simp only
  split
  · exact Yields.throw
  · apply Yields.pure
    omega

theorem optionValue_yields {L : Libc} (hL : LibcOk L) {o : Opts} (h : OptRange o) (k : OKw) (inp : Bytes) :
    Yields OptRange (optionValue L o k inp) := by
  obtain ⟨h1, h2, h3, h4, h5, h6, h7, h8, h9, h10, h11, h12⟩ := h
  unfold optionValue
  cases k <;> simp only
  case importTable =>
    refine (getport_yields inp).bind fun a r hr => Yields.pure ?_
    constructor <;> try assumption
    simp only
    split
    · exact h7
    · refine ⟨by simp; omega, fun n hn => ?_⟩
      simp only [List.mem_append, List.mem_singleton] at hn
      rcases hn with hn | rfl
      · exact h7.2 n hn
      · exact hr
  case group => exact (getip_yields hL inp).bind fun a r hr => Yields.pure (by constructor <;> assumption)
  case routerId => exact (getid_yields hL inp).bind fun a r hr => Yields.pure (by constructor <;> first | assumption | (intro x e; cases e; exact hr))
  case debug =>
    refine (getint_yields inp).bind fun a r ha => ?_
    simp only
    split
    · exact Yields.throw
    · apply Yields.pure
      constructor <;> first | assumption | (simp only; omega)
  case halfLife =>
    refine (getint_yields inp).bind fun a r ha => ?_
    simp only
    split
    · exact Yields.throw
    · apply Yields.pure
      constructor <;> first | assumption | (simp only; omega)
  case localPort => exact (getport_yields inp).bind fun a r hr => Yields.pure (by
    constructor <;> first | assumption | (simp only [Port]; omega) | exact .inr rfl)
  case localPortRw => exact (getport_yields inp).bind fun a r hr => Yields.pure (by
    constructor <;> first | assumption | (simp only [Port]; omega) | exact .inr rfl)
  case localPath => exact (Yields.any (getstring inp)).bind fun a r hr => Yields.pure (by
    constructor <;> first | assumption | exact .inl rfl)
  case localPathRw => exact (Yields.any (getstring inp)).bind fun a r hr => Yields.pure (by
    constructor <;> first | assumption | exact .inl rfl)
  case stateFile => exact (Yields.any (getstring inp)).bind fun a r hr => Yields.pure (by constructor <;> assumption)
  case logFile => exact (Yields.any (getstring inp)).bind fun a r hr => Yields.pure (by constructor <;> assumption)
  case pidFile => exact (Yields.any (getstring inp)).bind fun a r hr => Yields.pure (by constructor <;> assumption)
  case linkDetect => exact (Yields.any (getyes inp)).bind fun a r hr => Yields.pure (by constructor <;> assumption)
  case randomId => exact (Yields.any (getyes inp)).bind fun a r hr => Yields.pure (by constructor <;> assumption)
  case daemonise => exact (Yields.any (getyes inp)).bind fun a r hr => Yields.pure (by constructor <;> assumption)
  case skipKernelSetup => exact (Yields.any (getyes inp)).bind fun a r hr => Yields.pure (by constructor <;> assumption)
  case subtrees => exact (Yields.any (getyes inp)).bind fun a r hr => Yields.pure (by constructor <;> assumption)
  case reflect => exact (Yields.any (getyes inp)).bind fun a r hr => Yields.pure (by constructor <;> assumption)
  all_goals exact (getport_yields inp).bind fun a r hr => Yields.pure (by
    constructor <;> first | assumption | (simp only [Port]; omega))

/-! ### Lines -/

theorem Spec.IfRange.keys {ks ks' : List KeyDef} {i : IfConf} (h : IfRange ks i) (hk : ∀ k ∈ ks, ∃ k' ∈ ks', k'.id = k.id) :
    IfRange ks' i := by
  obtain ⟨h1, h2, h3, h4, h5, h6, h7, h8, h9, h10, h11, h12, h13, h14, h15, h16, h17, h18⟩ := h
  constructor <;> try assumption
  intro id e
  obtain ⟨k, hk1, rfl⟩ := h18 id e
  exact hk k hk1

theorem addInterface_range {s : Conf} (h : ConfRange s) (n : Bytes) (ref : ConfRef)
    (hr : ∀ i, ref = .own i → IfRange s.keys i) : ConfRange (addInterface s n ref) := by
  unfold addInterface
  split
  · exact h
  · refine ⟨h.input, h.output, h.redist, h.install, h.defaults, h.ifconfs, ?_, h.keys, h.keysDistinct, h.opts⟩
    intro m i hm
    simp only [List.mem_append, List.mem_singleton, Prod.mk.injEq] at hm
    rcases hm with hm | ⟨rfl, hm⟩
    · exact h.own m i hm
    · exact hr i hm.symm

theorem addIfconf_range {s : Conf} (h : ConfRange s) {i : IfConf} (hi : IfRange s.keys i) : ConfRange (addIfconf s i) := by
  have key : ConfRange { s with ifconfs :=
      (if s.ifconfs.any (·.name == i.name) then
        s.ifconfs.map (fun x => if x.name == i.name then mergeIfconf x i x else x)
      else s.ifconfs ++ [i]) } := by
    refine ⟨h.input, h.output, h.redist, h.install, h.defaults, ?_, h.own, h.keys, h.keysDistinct, h.opts⟩
    intro j hj
    simp only at hj
    split at hj
    · rw [List.mem_map] at hj
      obtain ⟨x, hx, rfl⟩ := hj
      show IfRange s.keys (if x.name == i.name then mergeIfconf x i x else x)
      split
      · exact merge_range hi (h.ifconfs x hx) x
      · exact h.ifconfs x hx
    · rw [List.mem_append, List.mem_singleton] at hj
      rcases hj with hj | rfl
      · exact h.ifconfs j hj
      · exact hi
  unfold addIfconf
  simp only
  split
  · exact addInterface_range key _ _ (by intro i e; cases e)
  · exact key

theorem flushInterface_range {s : Conf} (h : ConfRange s) (n : Bytes) : ConfRange (flushInterface s n).1 := by
  unfold flushInterface
  split
  · exact h
  · simp only
    split
    · exact ⟨h.input, h.output, h.redist, h.install, h.defaults, fun i hi => h.ifconfs i (List.mem_of_mem_eraseP hi),
        fun m i hm => h.own m i (List.mem_of_mem_eraseP hm), h.keys, h.keysDistinct, h.opts⟩
    · exact ⟨h.input, h.output, h.redist, h.install, h.defaults, h.ifconfs,
        fun m i hm => h.own m i (List.mem_of_mem_eraseP hm), h.keys, h.keysDistinct, h.opts⟩

theorem addKey_range {s : Conf} (h : ConfRange s) {k : KeyDef} (hk : KeyRange k) :
    ConfRange { s with keys := addKey s.keys k } := by
  have hsub : ∀ k' ∈ s.keys, ∃ k'' ∈ addKey s.keys k, k''.id = k'.id := by
    intro k' hk'
    have : (addKey s.keys k).any (·.id == k'.id) = true := any_addKey.2 (.inl (by simp; exact ⟨k', hk', rfl⟩))
    simpa using this
  refine ⟨h.input, h.output, h.redist, h.install, fun i hi => (h.defaults i hi).keys hsub,
    fun i hi => (h.ifconfs i hi).keys hsub, fun n i hi => (h.own n i hi).keys hsub, ?_, nodup_addKey h.keysDistinct, h.opts⟩
  intro x hx
  simp only [addKey] at hx
  split at hx
  · rw [List.mem_map] at hx
    obtain ⟨y, hy, rfl⟩ := hx
    split
    · exact hk
    · exact h.keys y hy
  · rw [List.mem_append, List.mem_singleton] at hx
    rcases hx with hx | rfl
    · exact h.keys x hx
    · exact hk

theorem parseLine_range {L : Libc} (hL : LibcOk L) (b : Bool) {s : Conf} (h : ConfRange s) (inp : Bytes) :
    ConfRange (parseLine L b s inp).1 := by
  unfold parseLine
  simp only
  split
  · exact h
  · split
    · exact h
    · rename_i token r _
      split
      · exact h
      · exact h
      · exact h
      · exact h
      · split
        · exact h
        · have hfil : ∀ (add : Conf → Filter → Conf), (∀ f, RuleRange f → ConfRange (add s f)) →
              ConfRange (filterLine L s add r).1 := by
            intro add hadd
            unfold filterLine
            split
            · exact h
            · split
              · exact h
              · rename_i f u hf
                exact hadd f (parseFilter_yields hL r f u hf)
          have happ : ∀ (l : List Filter) f, (∀ x ∈ l, RuleRange x) → RuleRange f → ∀ x ∈ l ++ [f], RuleRange x := by
            intro l f hl hf x hx
            rw [List.mem_append, List.mem_singleton] at hx
            rcases hx with hx | rfl
            · exact hl x hx
            · exact hf
          split
          · exact hfil _ fun f hf => ⟨happ _ _ h.input hf, h.output, h.redist, h.install, h.defaults, h.ifconfs, h.own, h.keys, h.keysDistinct, h.opts⟩
          · exact hfil _ fun f hf => ⟨h.input, happ _ _ h.output hf, h.redist, h.install, h.defaults, h.ifconfs, h.own, h.keys, h.keysDistinct, h.opts⟩
          · exact hfil _ fun f hf => ⟨h.input, h.output, happ _ _ h.redist hf, h.install, h.defaults, h.ifconfs, h.own, h.keys, h.keysDistinct, h.opts⟩
          · exact hfil _ fun f hf => ⟨h.input, h.output, h.redist, happ _ _ h.install hf, h.defaults, h.ifconfs, h.own, h.keys, h.keysDistinct, h.opts⟩
          · split
            · exact h
            · rename_i i u hi
              exact addIfconf_range h (parseIfconf_yields s.keys r i u hi)
          · split
            · exact h
            · rename_i i u hi
              have hi' := ifLoop_yields _ _ (ifRange_start s.keys []) r i u hi
              refine ⟨h.input, h.output, h.redist, h.install, ?_, h.ifconfs, h.own, h.keys, h.keysDistinct, h.opts⟩
              intro d hd
              simp only [Option.some.injEq] at hd
              subst hd
              split
              · exact hi'
              · rename_i d hd
                exact merge_range hi' (h.defaults d hd) d
          · unfold flushLine
            split
            · exact h
            · split
              · split
                · exact h
                · split
                  · exact h
                  · exact flushInterface_range h _
              · exact h
          · exact h
          · split
            · exact h
            · rename_i k u hk
              exact addKey_range h (parseKey_yields r k u hk)
          · unfold parseOption
            split
            · exact h
            · split
              · exact h
              · split
                · exact h
                · rename_i o u ho
                  exact ⟨h.input, h.output, h.redist, h.install, h.defaults, h.ifconfs, h.own, h.keys, h.keysDistinct,
                    optionValue_yields hL h.opts _ r o u ho⟩

theorem fileLoop_range {L : Libc} (hL : LibcOk L) (fuel : Nat) {s : Conf} (h : ConfRange s) (inp : Bytes) :
    ConfRange (fileLoop L fuel s inp).1 := by
  induction fuel generalizing s inp with
  | zero => exact h
  | succ fuel ih =>
    have := parseLine_range hL false h inp
    unfold fileLoop
    rcases hx : parseLine L false s inp with ⟨s', e | ⟨a, r⟩⟩
    · rw [hx] at this; exact this
    · rw [hx] at this
      simp only
      split
      · exact this
      · exact ih this r

theorem parseFiles_range {L : Libc} (hL : LibcOk L) (ts : List Bytes) {s : Conf} (h : ConfRange s) :
    ConfRange (parseFiles L s ts).1 := by
  induction ts generalizing s with
  | nil => exact h
  | cons t ts ih =>
    have : ConfRange (parseFile L s t).1 := by
      unfold parseFile
      split
      · exact h
      · exact fileLoop_range hL _ h t
    unfold parseFiles
    rcases hx : parseFile L s t with ⟨s', e | a⟩
    · rw [hx] at this; exact this
    · rw [hx] at this; exact ih this

theorem finalise_range {s : Conf} (h : ConfRange s) : ConfRange (finalise s) := by
  have happ : ∀ (l : List Filter) f, (∀ x ∈ l, RuleRange x) → RuleRange f → ∀ x ∈ l ++ [f], RuleRange x := by
    intro l f hl hf x hx
    rw [List.mem_append, List.mem_singleton] at hx
    rcases hx with hx | rfl
    · exact hl x hx
    · exact hf
  unfold finalise
  simp only
  have h1 : ConfRange { s with
      redist := s.redist ++ [{ proto := RTPROT_BABEL_LOCAL }]
      install := s.install ++ [{}] } :=
    ⟨h.input, h.output, happ _ _ h.redist (by constructor <;> simp), happ _ _ h.install ruleRange_start, h.defaults, h.ifconfs, h.own, h.keys, h.keysDistinct, h.opts⟩
  have hm : ∀ i ∈ s.ifconfs, IfRange s.keys (mergedConf { s with
      redist := s.redist ++ [{ proto := RTPROT_BABEL_LOCAL }]
      install := s.install ++ [{}] } i) := by
    intro i hi
    unfold mergedConf
    simp only
    rcases hd : s.defaults with _ | d
    · exact h.ifconfs i hi
    · exact merge_range (h.ifconfs i hi) (h.defaults d hd) i
  have fold : ∀ (l : List IfConf) (s0 : Conf), ConfRange s0 → s0.keys = s.keys → (∀ i ∈ l, IfRange s.keys i) →
      ConfRange (l.foldl (fun s i => addInterface s i.name (.own i)) s0) := by
    intro l
    induction l with
    | nil => intro s0 h0 _ _; exact h0
    | cons i l ih =>
      intro s0 h0 hk hl
      refine ih _ (addInterface_range h0 _ _ ?_) ?_ (fun j hj => hl j (by simp [hj]))
      · intro j e
        cases e
        rw [hk]; exact hl i (by simp)
      · show (addInterface s0 _ _).keys = _
        rw [← hk]; unfold addInterface; split <;> rfl
  have h2 := fold (s.ifconfs.map (mergedConf { s with
      redist := s.redist ++ [{ proto := RTPROT_BABEL_LOCAL }]
      install := s.install ++ [{}] })) _ h1 rfl (by
    intro i hi
    rw [List.mem_map] at hi
    obtain ⟨j, hj, rfl⟩ := hi
    exact hm j hj)
  exact ⟨h2.input, h2.output, h2.redist, h2.install, h2.defaults, by simp, h2.own, h2.keys, h2.keysDistinct, h2.opts⟩

theorem addNamed_range {s : Conf} (h : ConfRange s) (names : List Bytes) : ConfRange (addNamed s names) := by
  unfold addNamed
  induction names generalizing s with
  | nil => exact h
  | cons n names ih =>
    refine ih (addInterface_range h _ _ ?_)
    intro i e
    split at e <;> cases e

theorem parseString_range {L : Libc} (hL : LibcOk L) {s : Conf} (h : ConfRange s) (t : Bytes) :
    ConfRange (parseString L s t).1 := by
  have := parseLine_range hL true h t
  unfold parseString
  split
  · exact h
  · rcases hx : parseLine L true s t with ⟨s', e | ⟨a, r⟩⟩
    · rw [hx] at this; exact this
    · rw [hx] at this; exact this

theorem renumber_range {s : Conf} (h : ConfRange s) (L : Libc) : ConfRange (renumberFilters L s) := by
  have hf : ∀ f, RuleRange f → RuleRange (f.renumber L) := by
    intro f hf
    unfold Filter.renumber
    split
    · exact ⟨hf.metric, hf.table, hf.dst, hf.src, hf.newSrc, hf.neigh, hf.prefSrc, hf.id⟩
    · exact hf
  have hm : ∀ l : List Filter, (∀ f ∈ l, RuleRange f) → ∀ f ∈ l.map (Filter.renumber L), RuleRange f := by
    intro l hl f hfm
    rw [List.mem_map] at hfm
    obtain ⟨g, hg, rfl⟩ := hfm
    exact hf g (hl g hg)
  exact ⟨hm _ h.input, hm _ h.output, hm _ h.redist, hm _ h.install, h.defaults, h.ifconfs, h.own, h.keys, h.keysDistinct, h.opts⟩

theorem confRange_start : ConfRange {} :=
  ⟨by simp, by simp, by simp, by simp, by simp, by simp, by simp, by simp, by simp, optRange_start⟩

end Babel
