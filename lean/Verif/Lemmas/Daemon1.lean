import Verif.Lemmas.SafeBuf
import Verif.Lemmas.Buffer10
import Verif.Lemmas.Flap
import Verif.Lemmas.Items
import Verif.Props.Auth
import Verif.Props.Wire
/-
What is true of the whole daemon at all times.
-/
set_option linter.unusedSimpArgs false
set_option linter.unusedVariables false
set_option linter.unusedSectionVars false
namespace Babel
open Spec

/-- An update with its contents. -/
abbrev Upd := Bytes × PKey × Nat × Nat

/-- The update written to the interface's own buffer. -/
def updAt (j : Nat) : Snd → Option Upd
  | .update id k q m => if j = 0 then some (id, k, q, m) else none
  | _ => none

def updOf (i : IfId) : Out → Option Upd
  | .update i' id k q m => if i' = i then some (id, k, q.toNat, m) else none
  | _ => none

/-- The updates among the outputs, oldest first. -/
def ups (i : IfId) (l : List Out) : List Upd := l.reverse.filterMap (updOf i)

theorem ups_cons (i : IfId) (o : Out) (l : List Out) : ups i (o :: l) = ups i l ++ (updOf i o).toList := by
  unfold ups
  rw [List.reverse_cons, List.filterMap_append]
  cases h : updOf i o <;> simp [h]

/-- Updates come from the outputs. -/
def Comes (done : List Out) (i : IfId) : Snd → Prop
  | .update id k q m => ∃ q' : UInt16, q = q'.toNat ∧ Out.update i id k q' m ∈ done
  | .retraction _ => False
  | _ => True

theorem Comes.mono {done done' : List Out} {i : IfId} {op : Snd} (hm : ∀ o ∈ done, o ∈ done') (h : Comes done i op) :
    Comes done' i op := by
  cases op with
  | update id k q m =>
    obtain ⟨q', h1, h2⟩ := h
    exact ⟨q', h1, hm _ h2⟩
  | _ => exact h

/-- The parameters of the invariant. -/
structure Kit where
  e : DCfg
  /-- the destinations -/
  P : PKey → Prop
  /-- the destinations of redistributed routes -/
  X : PKey → Prop
  /-- the messages -/
  Q : Snd → Prop
  /-- the least cost -/
  t0 : Nat
  /-- the events of the routing part -/
  G : St → Ev → Prop
  s0 : St
  /-- the interfaces that go down -/
  F : IfId → Prop
  /-- the state of their buffers when they go down -/
  C : IfId → Buf → Prop
  /-- what is true of the buffers of an interface that is up or down, given the outputs written and the number of
  buffers in use -/
  L : IfId → Bool → List Out → Nat → Link → Prop

/-- The destination of buffer `j` is changed. -/
def Link.setDst (l : Link) (j : Nat) (a : Bytes) : Link :=
  { l with bufs := fun x => if x = j then { l.bufs x with dst := a } else l.bufs x }

/-- The circumstances of a write to an interface that is up or down. -/
def sifAt (e : DCfg) (s0 : St) (i : IfId) (b : Bool) : SIf :=
  { sifOf e s0 i with up := b, ll := if b then (e.ifs i).ll else [] }

/-- Events about which nothing has to be known. -/
def isFree : Ev → Bool
  | .tick _ => false
  | .setCost _ _ => false
  | .update _ _ _ _ _ _ _ => false
  | _ => true

/-- What has to be known of the buffers of interface `i`. -/
structure LinkOk (e : DCfg) (s0 : St) (Q : Snd → Prop) (i : IfId) (F : Prop) (C : Buf → Prop) (L : Bool → List Out → Nat → Link → Prop) :
    Prop where
  lstep : ∀ b done done' fresh l now j op, L b done fresh l → Q op → j < fresh →
    b = true ∨ (j ≠ 0 ∧ (e.ifs i).key = none) → (∀ o ∈ done, o ∈ done') → Comes done' i op →
    (b = true → (e.ifs i).unicast = false → ups i done' = ups i done ++ (updAt j op).toList) →
    ∃ l', l.step (e.orc i) (sifAt e s0 i b) now j op = some l' ∧ L b done' fresh l'
  lmono : ∀ b done done' fresh l, L b done fresh l → (∀ o ∈ done, o ∈ done') →
    (b = true → (e.ifs i).unicast = false → ups i done' = ups i done) → L b done' fresh l
  laddr : ∀ done fresh l a, L true done fresh l → 0 < fresh → L true done (fresh + 1) (l.setDst fresh a)
  ldown : ∀ done fresh l, F → C (l.bufs 0) → L true done fresh l → L false done fresh (l.own Buf.down)
  lup : ∀ done fresh l mtu fi, F → mtu ≤ 65536 → L false done fresh l → L true done fresh (l.own fun b => b.up b.dst mtu fi)

structure Kit.Ok (K : Kit) : Prop where
  nonces : ∀ i n, (K.e.nonces i n).1.length = 8
  penalty : ∀ i, (K.e.ifs i).maxRttPenalty < 2147483648
  rules : Rules K.e.node K.P K.X (fun b => b.length = 8)
  matched : ∀ k, Matched k → K.P k
  upd : ∀ id k q m, K.P k → id.length = 8 → q < 65536 → m ≤ INFINITY → K.Q (.update id k q m)
  req : ∀ k, (∀ k', k = some k' → K.P k') → K.Q (.request k)
  seq : ∀ k q id h, K.P k → q < 65536 → id.length = 8 → h < 256 → K.Q (.seqnoRequest k q id h)
  ack : ∀ n i, n < 65536 → i < 65536 → K.Q (.ack n i)
  challenge : ∀ b, b.length = 8 → K.Q (.challenge b)
  reply : ∀ b, b.length ≤ 192 → K.Q (.reply b)
  links : ∀ i, LinkOk K.e K.s0 K.Q i (K.F i) (K.C i) (K.L i)
  t1 : K.t0 ≤ 1
  cost : ∀ s n v, K.t0 ≤ v → K.G s (.setCost n v)
  free : ∀ s ev, isFree ev = true → K.G s ev

structure InvAt (K : Kit) (done : List Out) (d : Daemon) : Prop where
  keys : Keys K.P K.X (fun b => b.length = 8) d.st
  time : TvOk d.st.now ∧ 0 < micros d.st.now
  ifs : d.st.ifaces.map Iface.core = K.s0.ifaces.map Iface.core
  links : ∀ i, K.L i (ifUp d.st i) done (d.fresh i) (d.link i)
  bufs : ∀ p ∈ d.nbrs, (p.2.buf < d.fresh (K.e.node.ifOf p.1) ∧ K.t0 ≤ p.2.link.txcost) ∧ p.2.buf ≠ 0
  pos : ∀ i, 0 < d.fresh i
  dead : ∀ i, ifUp d.st i = false → (K.e.ifs i).key = none ∨ d.fresh i ≤ 1

abbrev DInv (K : Kit) (d : Daemon) : Prop := InvAt K d.st.out d

/-- A number of events of the routing part. -/
inductive Path (c : Cfg) (G : St → Ev → Prop) (s : St) : St → Prop
  | refl : Path c G s s
  | step {s'} (ev : Ev) : Path c G s s' → G s' ev → Path c G s (step c s' ev)

theorem Path.trans {c : Cfg} {G : St → Ev → Prop} {a b d : St} (h : Path c G a b) (h' : Path c G b d) : Path c G a d := by
  induction h' with
  | refl => exact h
  | step ev _ g ih => exact .step ev ih g

/-! ### What is done, one thing after the other -/

/-- The invariant holds, for some outputs already written. -/
def HoldsAt (K : Kit) (d : Daemon) : Prop := ∃ done, InvAt K done d

/-- The neighbours and their buffers. -/
def shape (d : Daemon) : List (NeighId × Nat) := d.nbrs.map fun p => (p.1, p.2.buf)

/-- One operation on a buffer. -/
structure Wrote (K : Kit) (d : Daemon) (i : IfId) (j : Nat) (op : Snd) (d' : Daemon) : Prop where
  at_ : HoldsAt K d
  q : K.Q op
  lt : j < d.fresh i
  up : ifUp d.st i = true ∨ j ≠ 0
  eq : d.write K.e i j op = some d'

/-- The same operation on several buffers. -/
inductive Writes (K : Kit) (op : Snd) : Daemon → List (IfId × Nat) → Daemon → Prop
  | nil {d} : Writes K op d [] d
  | cons {d d1 d' x l} : Wrote K d x.1 x.2 op d1 → Writes K op d1 l d' → Writes K op d (x :: l) d'

/-- What is done: an output of the routing part is written, given which interfaces are up, a neighbour is answered, a hello
or IHU is written, a neighbour is added or dropped, or nothing that concerns the buffers of neighbours. -/
inductive Lab
  | post (o : Out) (up : IfId → Bool)
  | to (m : NeighId) (op : Snd)
  | chat (i : IfId) (j : Nat) (op : Snd)
  | add (m : NeighId)
  | drop (m : NeighId)
  | quiet

def Lab.out : Lab → Option Out
  | .post o _ => some o
  | _ => none

def isAnswer : Snd → Bool
  | .ack _ _ => true
  | .challenge _ => true
  | .reply _ => true
  | _ => false

/-- Nothing that concerns the buffers of neighbours, nor those of interfaces that do not go down. -/
structure Hushed (K : Kit) (d d' : Daemon) : Prop where
  shape : Babel.shape d' = Babel.shape d
  fresh : d'.fresh = d.fresh
  bufs : ∀ i j, j ≠ 0 ∨ ¬ K.F i → (d'.link i).bufs j = (d.link i).bufs j
  out : ∀ i, (d'.link i).out = (d.link i).out

def Micro (K : Kit) (d : Daemon) : Lab → Daemon → Prop
  | .post o u, d' => u = ifUp d.st ∧
    match sndOf o with
    | none => d' = d
    | some (i, to, op) => if to = none ∧ ifUp d.st i = false then d' = d else Writes K op d (d.targets K.e i to) d'
  | .to m op, d' => isAnswer op = true ∧ ∃ x, d.nbr m = some x ∧ Wrote K d (K.e.node.ifOf m) x.buf op d'
  | .chat i j op, d' => isChatter op = true ∧ Wrote K d i j op d'
  | .add m, d' => d.nbr m = none ∧ d' = d.addNbr K.e m
  | .drop m, d' => ∃ a, d' = { d with nbrs := d.nbrs.filter fun p => !(p.1 == m), auth := a }
  | .quiet, d' => Hushed K d d'

/-- Several such things. -/
inductive Trace (K : Kit) : Daemon → List Lab → Daemon → Prop
  | nil {d} : HoldsAt K d → Trace K d [] d
  | cons {d d1 d' l ls} : HoldsAt K d → Micro K d l d1 → Trace K d1 ls d' → Trace K d (l :: ls) d'

theorem Trace.append {K : Kit} {a b d : Daemon} {l l' : List Lab} (h : Trace K a l b) (g : Trace K b l' d) : Trace K a (l ++ l') d := by
  induction h with
  | nil => exact g
  | cons h1 h2 _ ih => exact .cons h1 h2 (ih g)

theorem Trace.one {K : Kit} {a b : Daemon} {l : Lab} (h : HoldsAt K a) (h1 : Micro K a l b) (h2 : HoldsAt K b) : Trace K a [l] b := .cons h h1 (.nil h2)

/-- What is done accounts for the outputs. -/
def Acct (K : Kit) (d : Daemon) (ls : List Lab) (d' : Daemon) : Prop :=
  Trace K d ls d' ∧ d'.st.out = (ls.filterMap Lab.out).reverse ++ d.st.out

theorem Acct.append {K : Kit} {a b d : Daemon} {l l' : List Lab} (h : Acct K a l b) (g : Acct K b l' d) : Acct K a (l ++ l') d :=
  ⟨h.1.append g.1, by rw [g.2, h.2, List.filterMap_append, List.reverse_append, List.append_assoc]⟩

theorem Acct.nil {K : Kit} {d : Daemon} (h : DInv K d) : Acct K d [] d := ⟨.nil ⟨_, h⟩, rfl⟩

/-- The outputs are written while the interfaces that are up are those in `d`. -/
def PostsAt (d : Daemon) (ls : List Lab) : Prop := ∀ o u, Lab.post o u ∈ ls → u = ifUp d.st

/-- What is done, while no interface goes down or comes up. -/
def Calm (K : Kit) (d d' : Daemon) : Prop := ∃ ls, Acct K d ls d' ∧ ifUp d'.st = ifUp d.st ∧ PostsAt d' ls

theorem Calm.refl {K : Kit} {d : Daemon} (h : DInv K d) : Calm K d d := ⟨[], .nil h, rfl, nofun⟩

theorem Calm.trans {K : Kit} {a b d : Daemon} (h : Calm K a b) (g : Calm K b d) : Calm K a d := by
  obtain ⟨l, h1, h2, h3⟩ := h
  obtain ⟨l', g1, g2, g3⟩ := g
  refine ⟨l ++ l', h1.append g1, g2.trans h2, fun o u hu => ?_⟩
  rcases List.mem_append.1 hu with hu | hu
  · rw [g2]; exact h3 o u hu
  · exact g3 o u hu

/-- One thing that does not change the state of the routing part. -/
theorem Calm.one {K : Kit} {a b : Daemon} {l : Lab} (h : DInv K a) (h1 : Micro K a l b) (h2 : DInv K b) (hs : b.st = a.st) (hl : l.out = none) :
    Calm K a b := by
  refine ⟨[l], ⟨.one ⟨_, h⟩ h1 ⟨_, h2⟩, by rw [hs]; simp [hl]⟩, by rw [hs], fun o u hu => ?_⟩
  rw [List.mem_singleton] at hu
  subst hu
  cases hl

/-- The operation succeeds and keeps the invariant. -/
def Does (K : Kit) (d : Daemon) (x : Option Daemon) : Prop :=
  ∃ d', x = some d' ∧ DInv K d' ∧ Path K.e.node K.G d.st d'.st ∧ Calm K d d'

theorem Does.pure {K : Kit} {d : Daemon} (h : DInv K d) : Does K d (some d) := ⟨d, rfl, h, .refl, .refl h⟩

theorem Does.bind {K : Kit} {d : Daemon} {x : Option Daemon} {f : Daemon → Option Daemon} (h : Does K d x)
    (hf : ∀ d', DInv K d' → Does K d' (f d')) : Does K d (x >>= f) := by
  obtain ⟨d1, rfl, h1, p1, c1⟩ := h
  obtain ⟨d2, h2, h3, p2, c2⟩ := hf d1 h1
  exact ⟨d2, h2, h3, p1.trans p2, c1.trans c2⟩

/-- The operation, during which interfaces go down or come up before anything is written, succeeds and keeps the invariant. -/
def Steps (K : Kit) (d : Daemon) (x : Option Daemon) : Prop :=
  ∃ d', x = some d' ∧ DInv K d' ∧ Path K.e.node K.G d.st d'.st ∧ ∃ ls, Acct K d ls d' ∧ PostsAt d' ls

theorem Does.steps {K : Kit} {d : Daemon} {x : Option Daemon} (h : Does K d x) : Steps K d x := by
  obtain ⟨d', h1, h2, h3, ls, h4, _, h5⟩ := h
  exact ⟨d', h1, h2, h3, ls, h4, h5⟩

/-- Several operations succeed and keep the invariant. -/
def Runs (K : Kit) (d : Daemon) (x : Option Daemon) : Prop :=
  ∃ d', x = some d' ∧ DInv K d' ∧ Path K.e.node K.G d.st d'.st ∧ ∃ ls, Acct K d ls d'

theorem Runs.pure {K : Kit} {d : Daemon} (h : DInv K d) : Runs K d (some d) := ⟨d, rfl, h, .refl, [], .nil h⟩

/-! ### The circumstances do not change -/

theorem sif_core {e : DCfg} {s s0 : St} (h : s.ifaces.map Iface.core = s0.ifaces.map Iface.core) (i : IfId) :
    sifOf e s i = sifAt e s0 i (ifUp s i) := by
  have h := getIf_core h i
  unfold sifAt sifOf
  cases h1 : getIf s i with
  | none =>
    rw [h1] at h
    cases h2 : getIf s0 i with
    | none => rfl
    | some y => rw [h2] at h; cases h
  | some x =>
    rw [h1] at h
    cases h2 : getIf s0 i with
    | none => rw [h2] at h; cases h
    | some y =>
      rw [h2] at h
      have h := Option.some.inj h
      have f2 : x.rfc6126 = y.rfc6126 := congrArg (fun z => z.rfc6126) h
      have f3 : x.v4viav6 = y.v4viav6 := congrArg (fun z => z.v4viav6) h
      have f4 : x.updateInterval = y.updateInterval := congrArg (fun z => z.updateInterval) h
      simp only [f2, f3, f4]

/-! ### Writing to the buffers -/

theorem run_snoc {o : Orc} {l l' : Link} {acts : List Act} {x : Act} (h : l.run o acts = some l') :
    l.run o (acts ++ [x]) = l'.step o x.c x.now x.i x.op := by
  induction acts generalizing l with
  | nil =>
    cases h
    show (l'.step o x.c x.now x.i x.op >>= fun l => Link.run o l []) = _
    cases l'.step o x.c x.now x.i x.op <;> rfl
  | cons y ys ih =>
    rw [List.cons_append]
    unfold Link.run at h ⊢
    cases hs : l.step o y.c y.now y.i y.op with
    | none => rw [hs] at h; cases h
    | some l1 =>
      rw [hs] at h
      exact ih h

section
variable {K : Kit} (hK : K.Ok)
include hK

/-- One write. -/
theorem InvAt.write {done done' : List Out} {d : Daemon} (h : InvAt K done d) (i : IfId) (j : Nat) (op : Snd) (hj : j < d.fresh i)
    (hb : ifUp d.st i = true ∨ j ≠ 0) (hq : K.Q op) (hm : ∀ o ∈ done, o ∈ done') (hc : Comes done' i op)
    (ho : ∀ i', i' ≠ i → (K.e.ifs i').unicast = false → ups i' done' = ups i' done)
    (hi : ifUp d.st i = true → (K.e.ifs i).unicast = false → ups i done' = ups i done ++ (updAt j op).toList) :
    ∃ d', Wrote K d i j op d' ∧ InvAt K done' d' ∧ d'.st = d.st ∧ d'.nbrs = d.nbrs ∧ d'.fresh = d.fresh := by
  have hb' : ifUp d.st i = true ∨ (j ≠ 0 ∧ (K.e.ifs i).key = none) := by
    rcases hb with hb | hb
    · exact .inl hb
    · cases hu : ifUp d.st i with
      | true => exact .inl rfl
      | false =>
        rcases h.dead i hu with hd | hd
        · exact .inr ⟨hb, hd⟩
        · omega
  obtain ⟨l', hl, hL⟩ := (hK.links i).lstep _ done done' _ _ d.st.now j op (h.links i) hq hj hb' hm hc hi
  refine ⟨{ d with link := fun x => if x = i then l' else d.link x }, ⟨⟨_, h⟩, hq, hj, hb, ?_⟩,
    ⟨h.keys, h.time, h.ifs, fun i' => ?_, h.bufs, h.pos, h.dead⟩, rfl, rfl, rfl⟩
  · unfold Daemon.write
    rw [sif_core h.ifs i, hl]
    rfl
  · show K.L i' (ifUp d.st i') done' (d.fresh i') (if i' = i then l' else d.link i')
    by_cases hii : i' = i
    · subst hii
      rw [if_pos rfl]
      exact hL
    · rw [if_neg hii]
      exact (hK.links i').lmono _ _ _ _ _ (h.links i') hm fun _ hu' => ho i' hii hu'

theorem InvAt.mono {done done' : List Out} {d : Daemon} (h : InvAt K done d) (hm : ∀ o ∈ done, o ∈ done')
    (ho : ∀ i', ifUp d.st i' = true → (K.e.ifs i').unicast = false → ups i' done' = ups i' done) : InvAt K done' d :=
  ⟨h.keys, h.time, h.ifs, fun i' => (hK.links i').lmono _ _ _ _ _ (h.links i') hm (ho i'), h.bufs, h.pos, h.dead⟩

/-- Several writes. -/
theorem InvAt.writes {done : List Out} (op : Snd) (hq : K.Q op) (l : List (IfId × Nat)) : ∀ {d : Daemon}, InvAt K done d →
    (∀ x ∈ l, (x.2 < d.fresh x.1 ∧ (ifUp d.st x.1 = true ∨ x.2 ≠ 0)) ∧ Comes done x.1 op ∧ ((K.e.ifs x.1).unicast = false → updAt x.2 op = none)) →
    ∃ d', l.foldlM (fun d x => d.write K.e x.1 x.2 op) d = some d' ∧ Writes K op d l d' ∧
      InvAt K done d' ∧ d'.st = d.st ∧ d'.nbrs = d.nbrs ∧ d'.fresh = d.fresh := by
  induction l with
  | nil => intro d h _; exact ⟨d, rfl, .nil, h, rfl, rfl, rfl⟩
  | cons x l ih =>
    intro d h hl
    obtain ⟨h1, h2, h3⟩ := hl x (List.mem_cons_self ..)
    obtain ⟨d1, e1, i1, s1, n1, f1⟩ := h.write hK x.1 x.2 op h1.1 h1.2 hq (fun o ho => ho) h2 (fun _ _ _ => rfl)
      (fun _ hu => by rw [h3 hu]; simp)
    obtain ⟨d2, e2, c2, i2, s2, n2, f2⟩ := ih i1 (fun y hy => by rw [f1, s1]; exact hl y (List.mem_cons_of_mem _ hy))
    refine ⟨d2, ?_, .cons e1 c2, i2, s2.trans s1, n2.trans n1, f2.trans f1⟩
    rw [List.foldlM_cons, e1.eq]
    exact e2

omit hK in
theorem nbr_mem {d : Daemon} {n : NeighId} {x : DNbr} (h : d.nbr n = some x) : (n, x) ∈ d.nbrs := by
  unfold Daemon.nbr at h
  rw [Option.map_eq_some_iff] at h
  obtain ⟨p, hp, e⟩ := h
  have h1 := List.mem_of_find?_eq_some hp
  have h2 := List.find?_some hp
  have h2 : p.1 = n := by simpa using h2
  subst h2
  subst e
  exact h1

/-- An output of the routing part is written. -/
theorem InvAt.post {done : List Out} {d : Daemon} (h : InvAt K done d) (o : Out) (hk : OutKeys K.P (fun b => b.length = 8) o) :
    ∃ d', d.post K.e o = some d' ∧ Micro K d (.post o (ifUp d.st)) d' ∧
      InvAt K (o :: done) d' ∧ d'.st = d.st ∧ d'.nbrs = d.nbrs ∧ d'.fresh = d.fresh := by
  have hsub : ∀ x ∈ done, x ∈ o :: done := fun x hx => List.mem_cons_of_mem _ hx
  have hone : ∀ n, ∀ x ∈ (d.nbr n).toList.map (fun x => (K.e.node.ifOf n, x.buf)), x.2 < d.fresh x.1 ∧ x.2 ≠ 0 := by
    intro n x hx
    obtain ⟨y, hy, rfl⟩ := List.mem_map.1 hx
    rw [Option.mem_toList] at hy
    have := h.bufs _ (nbr_mem hy)
    exact ⟨this.1.1, this.2⟩
  have hall : ∀ i to, ¬ (to = none ∧ ifUp d.st i = false) → ∀ x ∈ d.targets K.e i to,
      (x.2 < d.fresh x.1 ∧ (ifUp d.st x.1 = true ∨ x.2 ≠ 0)) ∧ (to = none → x.1 = i) := by
    intro i to hup x hx
    unfold Daemon.targets at hx
    cases to with
    | some n => exact ⟨⟨(hone n x hx).1, .inr (hone n x hx).2⟩, nofun⟩
    | none =>
      have hup : ifUp d.st i = true := by
        cases hu : ifUp d.st i with
        | true => rfl
        | false => exact absurd ⟨rfl, hu⟩ hup
      simp only at hx
      split at hx
      · obtain ⟨p, hp, rfl⟩ := List.mem_map.1 hx
        obtain ⟨hp1, hp2⟩ := List.mem_filter.1 hp
        have hp2 : K.e.node.ifOf p.1 = i := by simpa using hp2
        refine ⟨⟨?_, .inl hup⟩, fun _ => rfl⟩
        show p.2.buf < d.fresh i
        rw [← hp2]
        exact (h.bufs p hp1).1.1
      · rw [List.mem_singleton] at hx
        subst hx
        exact ⟨⟨h.pos i, .inl hup⟩, fun _ => rfl⟩
  have hplain : ∀ i to op, sndOf o = some (i, to, op) → K.Q op → (∀ i', updOf i' o = none) → (∀ j, updAt j op = none) →
      (∀ i', Comes (o :: done) i' op) →
      ∃ d', d.post K.e o = some d' ∧ Micro K d (.post o (ifUp d.st)) d' ∧
        InvAt K (o :: done) d' ∧ d'.st = d.st ∧ d'.nbrs = d.nbrs ∧ d'.fresh = d.fresh := by
    intro i to op hs hq hu hj hc
    unfold Daemon.post Micro
    rw [hs]
    have h1 : InvAt K (o :: done) d := h.mono hK hsub (fun i' _ _ => by rw [ups_cons, hu]; simp)
    simp only
    by_cases hup : to = none ∧ ifUp d.st i = false
    · rw [if_pos hup]
      exact ⟨d, rfl, ⟨trivial, by rw [hs]; simp only [if_pos hup]⟩, h1, rfl, rfl, rfl⟩
    · rw [if_neg hup]
      obtain ⟨d', w1, w2, w3⟩ := h1.writes hK op hq _ (fun x hx => ⟨(hall i to hup x hx).1, hc _, fun _ => hj _⟩)
      exact ⟨d', w1, ⟨trivial, by rw [hs]; simp only [if_neg hup]; exact w2⟩, w3⟩
  cases ho : o with
  | update i id k q m =>
    subst ho
    have hq : K.Q (.update id k q.toNat m) := hK.upd id k q.toNat m hk.1 hk.2.1 q.toNat_lt hk.2.2
    have hc : Comes (Out.update i id k q m :: done) i (.update id k q.toNat m) := ⟨q, rfl, List.mem_cons_self ..⟩
    have hother : ∀ i', i' ≠ i → ups i' (Out.update i id k q m :: done) = ups i' done := by
      intro i' hii
      rw [ups_cons]
      show _ ++ (if i = i' then some _ else none).toList = _
      rw [if_neg (Ne.symm hii)]
      simp
    show ∃ d', (if none = none ∧ ifUp d.st i = false then some d else
      (d.targets K.e i none).foldlM (fun d x => d.write K.e x.1 x.2 (.update id k q.toNat m)) d) = some d' ∧
      (ifUp d.st = ifUp d.st ∧ (if none = none ∧ ifUp d.st i = false then d' = d else
        Writes K (.update id k q.toNat m) d (d.targets K.e i none) d')) ∧ _
    by_cases hup : (none : Option NeighId) = none ∧ ifUp d.st i = false
    · rw [if_pos ⟨rfl, hup.2⟩]
      refine ⟨d, rfl, ⟨rfl, by rw [if_pos hup]⟩, h.mono hK hsub (fun i' hu' _ => hother i' ?_), rfl, rfl, rfl⟩
      rintro rfl
      rw [hup.2] at hu'
      cases hu'
    have hup' : ¬ ((none : Option NeighId) = none ∧ ifUp d.st i = false) := fun hn => hup ⟨rfl, hn.2⟩
    rw [if_neg hup']
    by_cases hu : (K.e.ifs i).unicast = true
    · have h1 : InvAt K (Out.update i id k q m :: done) d := h.mono hK hsub (fun i' _ hu' => hother i' (by
        rintro rfl
        rw [hu] at hu'; cases hu'))
      suffices hw : _ by
        obtain ⟨d', w1, w2, w3⟩ := h1.writes hK _ hq (d.targets K.e i none) hw
        exact ⟨d', w1, ⟨rfl, by rw [if_neg hup']; exact w2⟩, w3⟩
      refine fun x hx => ⟨(hall i none hup x hx).1, ?_, fun hu' => ?_⟩
      · rw [(hall i none hup x hx).2 rfl]; exact hc
      · rw [(hall i none hup x hx).2 rfl, hu] at hu'; cases hu'
    · have ht : d.targets K.e i none = [(i, 0)] := by
        show (if _ then _ else _) = _
        rw [if_neg hu]
      have h0 := hall i none hup (i, 0) (by rw [ht]; exact List.mem_singleton.2 rfl)
      rw [ht]
      obtain ⟨d', e1, r⟩ := h.write hK i 0 (.update id k q.toNat m) (h.pos i) h0.1.2 hq hsub hc (fun i' hii _ => hother i' hii)
        (fun _ _ => by
          rw [ups_cons]
          show _ ++ (if i = i then some _ else none).toList = _
          rw [if_pos rfl]
          rfl)
      refine ⟨d', ?_, ⟨rfl, by rw [if_neg hup']; exact .cons e1 .nil⟩, r⟩
      rw [List.foldlM_cons, e1.eq]
      rfl
  | request i to k =>
    subst ho
    exact hplain i to (.request k) rfl (hK.req k hk) (fun _ => rfl) (fun _ => rfl) (fun _ => trivial)
  | mhRequest i to k q id hop =>
    subst ho
    exact hplain i to (.seqnoRequest k q.toNat id hop) rfl (hK.seq k _ id hop hk.1 q.toNat_lt hk.2.1 hk.2.2) (fun _ => rfl) (fun _ => rfl)
      (fun _ => trivial)
  | _ =>
    subst ho
    exact ⟨d, rfl, ⟨rfl, rfl⟩, h.mono hK hsub (fun i' _ _ => by rw [ups_cons]; simp [updOf]), rfl, rfl, rfl⟩

theorem InvAt.posts (new : List Out) : ∀ {done : List Out} {d : Daemon}, InvAt K done d →
    (∀ o ∈ new, OutKeys K.P (fun b => b.length = 8) o) →
    ∃ d', new.reverse.foldlM (fun d o => d.post K.e o) d = some d' ∧ Trace K d (new.reverse.map fun o => .post o (ifUp d.st)) d' ∧
      InvAt K (new ++ done) d' ∧ d'.st = d.st ∧ d'.nbrs = d.nbrs ∧ d'.fresh = d.fresh := by
  induction new with
  | nil => intro done d h _; exact ⟨d, rfl, .nil ⟨_, h⟩, h, rfl, rfl, rfl⟩
  | cons o l ih =>
    intro done d h hl
    obtain ⟨d1, e1, c1, i1, s1, n1, f1⟩ := ih h (fun y hy => hl y (List.mem_cons_of_mem _ hy))
    obtain ⟨d2, e2, c2, i2, s2, n2, f2⟩ := i1.post hK o (hl o (List.mem_cons_self ..))
    refine ⟨d2, ?_, ?_, i2, s2.trans s1, n2.trans n1, f2.trans f1⟩
    rotate_left
    · rw [List.reverse_cons, List.map_append]
      rw [s1] at c2
      exact c1.append (.one ⟨_, i1⟩ c2 ⟨_, i2⟩)
    rw [List.reverse_cons, List.foldlM_append, e1]
    show ([o].foldlM (fun d o => d.post K.e o) d1) = _
    rw [List.foldlM_cons, e2]
    rfl

/-! ### The routing part -/

theorem cost_some {now : Timeval} {i : LinkCfg} {n : Nbr} (hp : i.maxRttPenalty < 2147483648) (ht : K.t0 ≤ n.txcost) :
    ∃ v, neighbourCost now i n = some v ∧ K.t0 ≤ v := by
  have h1 := hK.t1
  have hr : ∃ p, rttcost now i n = some p ∧ p < 2147483648 := by
    unfold rttcost
    split
    · exact ⟨0, rfl, by decide⟩
    split
    · exact ⟨0, rfl, by decide⟩
    split
    · next h2 h3 =>
      have : i.maxRttPenalty * (n.rtt - i.rttMin) / (i.rttMax - i.rttMin) ≤ i.maxRttPenalty := by
        apply Nat.div_le_of_le_mul
        rw [Nat.mul_comm]
        exact Nat.mul_le_mul_right _ (by omega)
      simp only
      rw [if_pos (by omega)]
      exact ⟨_, rfl, by omega⟩
    · exact ⟨_, rfl, hp⟩
  obtain ⟨p, hr, hp'⟩ := hr
  have hinf : (INFINITY : Nat) = 65535 := rfl
  unfold neighbourCost
  split
  · exact ⟨_, rfl, by omega⟩
  simp only
  split
  · exact ⟨_, rfl, by omega⟩
  split
  · exact ⟨_, rfl, by omega⟩
  next ha hb =>
  rw [hr]
  refine ⟨_, rfl, ?_⟩
  rw [Nat.le_min]
  refine ⟨?_, by omega⟩
  generalize rxcost now i n = b at *
  split
  · unfold u32
    rw [Nat.mod_eq_of_lt (by omega)]
    omega
  · have m1 : max n.txcost 256 ≤ 65534 := by omega
    have m2 : max b 256 ≤ 65534 := by omega
    have m3 : 256 ≤ max n.txcost 256 := by omega
    have m4 : 256 ≤ max b 256 := by omega
    generalize max n.txcost 256 = x at *
    generalize max b 256 = y at *
    have u1 : x * y ≤ 65534 * 65534 := Nat.mul_le_mul m1 m2
    have u2 : 256 * 256 ≤ x * y := Nat.mul_le_mul m3 m4
    unfold u32
    rw [Nat.mod_eq_of_lt (a := x * y) (by omega), Nat.mod_eq_of_lt (a := x * y + 128) (by omega), Nat.shiftRight_eq_div_pow]
    rw [Nat.mod_eq_of_lt (by omega)]
    omega

omit hK in
theorem keys_of_eq {P X : PKey → Prop} {I : Bytes → Prop} {s s' : St} (h : Keys P X I s) (h1 : s'.routes = s.routes)
    (h2 : s'.xroutes = s.xroutes) (h3 : s'.ifaces = s.ifaces) (h4 : s'.resends = s.resends) (h5 : s'.out = s.out) : Keys P X I s' :=
  ⟨by rw [h1]; exact h.routes, by rw [h2]; exact h.xroutes, by rw [h3]; exact h.queue, by rw [h4]; exact h.resends,
    by rw [h5]; exact h.out⟩

/-- The current costs are made known. -/
theorem DInv.refresh {d : Daemon} (h : DInv K d) : ∃ d', d.refresh K.e = some d' ∧ DInv K d' ∧ Path K.e.node K.G d.st d'.st ∧
    (∃ nc, d'.st = { d.st with ncost := nc }) ∧ d'.nbrs = d.nbrs ∧ d'.fresh = d.fresh ∧ d'.link = d.link := by
  have key : ∀ (l : List (NeighId × DNbr)) (d : Daemon), DInv K d → (∀ p ∈ l, K.t0 ≤ p.2.link.txcost) →
      ∃ d', l.foldlM (fun d p => do
        let v ← neighbourCost d.st.now (linkCfgOf K.e d.st (K.e.node.ifOf p.1)) p.2.link
        return { d with st := step K.e.node d.st (.setCost p.1 v) }) d = some d' ∧ DInv K d' ∧ Path K.e.node K.G d.st d'.st ∧
        (∃ nc, d'.st = { d.st with ncost := nc }) ∧ d'.nbrs = d.nbrs ∧ d'.fresh = d.fresh ∧ d'.link = d.link := by
    intro l
    induction l with
    | nil => intro d h _; exact ⟨d, rfl, h, .refl, ⟨d.st.ncost, rfl⟩, rfl, rfl, rfl⟩
    | cons p l ih =>
      intro d h hl
      obtain ⟨v, hv, hv'⟩ := cost_some hK (now := d.st.now) (i := linkCfgOf K.e d.st (K.e.node.ifOf p.1))
        (hK.penalty _) (hl p (List.mem_cons_self ..))
      have h1 : DInv K { d with st := step K.e.node d.st (.setCost p.1 v) } :=
        ⟨keys_of_eq h.keys rfl rfl rfl rfl rfl, h.time, h.ifs, h.links, h.bufs, h.pos, h.dead⟩
      obtain ⟨d2, e2, i2, p2, ⟨nc, s2⟩, n2, f2, l2⟩ := ih _ h1 (fun y hy => hl y (List.mem_cons_of_mem _ hy))
      refine ⟨d2, ?_, i2, ?_, ⟨nc, s2⟩, n2, f2, l2⟩
      · rw [List.foldlM_cons, hv]
        exact e2
      · exact (Path.step _ .refl (hK.cost _ _ _ hv')).trans p2
  exact key d.nbrs d h fun p hp => (h.bufs p hp).1.2

/-- One event of the routing part, given what it does and how the buffers are changed. -/
theorem DInv.nodeWith {d : Daemon} (h : DInv K d) (f : (IfId → Link) → IfId → Link) (ev : Ev) (hG : ∀ nc, K.G { d.st with ncost := nc } ev)
    (hs : ∀ s, Keys K.P K.X (fun b => b.length = 8) s → s.ifaces = d.st.ifaces → s.now = d.st.now →
      Keys K.P K.X (fun b => b.length = 8) (step K.e.node s ev) ∧
      (TvOk (step K.e.node s ev).now ∧ 0 < micros (step K.e.node s ev).now) ∧
      (step K.e.node s ev).ifaces.map Iface.core = s.ifaces.map Iface.core ∧ (∃ new, (step K.e.node s ev).out = new ++ s.out) ∧
      (∀ i done fresh l, K.L i (ifUp s i) done fresh (l i) → l i = d.link i → K.L i (ifUp (step K.e.node s ev) i) done fresh (f l i)) ∧
      (∀ i, ifUp (step K.e.node s ev) i = false → ifUp s i = false ∨ (K.e.ifs i).key = none))
    (hf : ∀ l i, (∀ j, j ≠ 0 ∨ ¬ K.F i → (f l i).bufs j = (l i).bufs j) ∧ (f l i).out = (l i).out) :
    Steps K d (d.nodeAs K.e f ev) ∧ ∀ d', d.nodeAs K.e f ev = some d' → ∃ nc, d'.st = step K.e.node { d.st with ncost := nc } ev := by
  obtain ⟨d1, e1, i1, p1, ⟨nc, s1⟩, n1, f1, l1⟩ := h.refresh hK
  obtain ⟨k2, t2, f2, ⟨new, o2⟩, g2, u2⟩ := hs d1.st i1.keys (by rw [s1]) (by rw [s1])
  unfold Daemon.nodeAs
  rw [e1]
  simp only [Option.bind_eq_bind, Option.bind_some]
  have hnew : (step K.e.node d1.st ev).out.take ((step K.e.node d1.st ev).out.length - d1.st.out.length) = new := by
    rw [o2, List.length_append, Nat.add_sub_cancel, List.take_left' rfl]
  rw [hnew]
  have h2 : InvAt K d1.st.out { d1 with st := step K.e.node d1.st ev, lastUpdate := dumped d1 ev, link := f d1.link } :=
    ⟨k2, t2, f2.trans i1.ifs, fun i => g2 i _ _ _ (i1.links i) (by rw [l1]), i1.bufs, i1.pos, fun i hi => by
      rcases u2 i hi with h | h
      · exact i1.dead i h
      · exact .inl h⟩
  obtain ⟨d3, e3, c3, i3, s3, n3, f3⟩ := h2.posts hK new (fun o ho => k2.out o (by rw [o2]; exact List.mem_append_left _ ho))
  refine ⟨⟨d3, e3, ?_, ?_, _, ⟨.cons ⟨_, h⟩ (l := .quiet) ⟨?_, ?_, ?_, ?_⟩ c3, ?_⟩, ?_⟩, fun d' hd' => ⟨nc, ?_⟩⟩
  rotate_left 2
  · show shape d1 = _
    unfold shape
    rw [n1]
  · exact f1
  · intro i j hj
    show (f d1.link i).bufs j = _
    rw [(hf _ _).1 j hj, l1]
  · intro i
    show (f d1.link i).out = _
    rw [(hf _ _).2, l1]
  · rw [s3]
    show (step K.e.node d1.st ev).out = _
    rw [o2, List.filterMap_cons, show Lab.quiet.out = none from rfl]
    simp only [List.filterMap_map, Function.comp_def, Lab.out, List.filterMap_some, List.reverse_reverse]
    rw [s1]
  · intro o u hu
    rw [s3]
    rcases List.mem_cons.1 hu with hu | hu
    · cases hu
    · obtain ⟨o', _, hu⟩ := List.mem_map.1 hu
      cases hu
      rfl
  · have hd' := hd'.symm.trans e3
    cases hd'
    rw [s3, ← s1]
  · show InvAt K d3.st.out d3
    rw [s3]
    show InvAt K (step K.e.node d1.st ev).out d3
    rw [o2]
    exact i3
  · rw [s3]
    exact Path.step ev p1 (by rw [s1]; exact hG nc)

omit hK in
theorem Steps.calm {d : Daemon} {x : Option Daemon} {ev : Ev}
    (h : Steps K d x ∧ ∀ d', x = some d' → ∃ nc, d'.st = step K.e.node { d.st with ncost := nc } ev)
    (hu : ∀ nc, ifUp (step K.e.node { d.st with ncost := nc } ev) = ifUp d.st) : Does K d x := by
  obtain ⟨⟨d', h1, h2, h3, ls, h4, h5⟩, h6⟩ := h
  obtain ⟨nc, h7⟩ := h6 d' h1
  exact ⟨d', h1, h2, h3, ls, h4, by rw [h7, hu], h5⟩

omit hK in
theorem ownBuf_quiet {i : IfId} (hF : K.F i) (f : Buf → Buf) (l : IfId → Link) (x : IfId) :
    (∀ j, j ≠ 0 ∨ ¬ K.F x → (ownBuf i f l x).bufs j = (l x).bufs j) ∧ (ownBuf i f l x).out = (l x).out := by
  unfold ownBuf Link.own
  split
  · next h =>
    subst h
    exact ⟨fun j hj => if_neg (hj.resolve_right fun h => h hF), rfl⟩
  · exact ⟨fun _ _ => rfl, rfl⟩

theorem DInv.node {d : Daemon} (h : DInv K d) (ev : Ev) (hG : ∀ nc, K.G { d.st with ncost := nc } ev)
    (he : EvKeys K.e.node K.P K.X (fun b => b.length = 8) ev)
    (h1 : ∀ t, ev ≠ .tick t) (h2 : ∀ n v, ev ≠ .setCost n v) (h3 : ∀ i, ev ≠ .ifDown i ∧ ∀ b, ev ≠ .ifUp i b) :
    Does K d (d.node K.e ev) := by
  refine Steps.calm (h.nodeWith hK (fun l => l) ev hG (fun s hs hi hn => ?_) fun l i => ⟨fun _ _ => rfl, rfl⟩) fun nc => ?_
  rotate_left
  · have t := tame_step hK.rules (s := { d.st with ncost := nc }) (keys_of_eq h.keys rfl rfl rfl rfl rfl) ev he h1 h2 h3
    funext i
    rw [ifUp_fixed t.ifs]
    rfl
  have t := tame_step hK.rules hs ev he h1 h2 h3
  refine ⟨t.keys, ?_, core_of_fixed t.ifs, t.out, fun i done fresh l hl _ => ?_, fun i hu => .inl ?_⟩
  · rw [t.now, hn]
    exact h.time
  · rw [ifUp_fixed t.ifs]
    exact hl
  · rw [← ifUp_fixed t.ifs]
    exact hu

theorem DInv.tick {d : Daemon} (h : DInv K d) (t : Timeval) (hG : ∀ nc, K.G { d.st with ncost := nc } (.tick t))
    (ht : TvOk t ∧ 0 < micros t) : Does K d (d.node K.e (.tick t)) :=
  Steps.calm (h.nodeWith hK (fun l => l) _ hG (fun s hs hi hn => ⟨keys_of_eq hs rfl rfl rfl rfl rfl, ht, rfl, ⟨[], rfl⟩,
    fun i done fresh l hl _ => hl, fun i hu => .inl hu⟩) fun l i => ⟨fun _ _ => rfl, rfl⟩) fun nc => rfl

theorem DInv.ifaceDown {d : Daemon} (h : DInv K d) (i : IfId) (hF : K.F i)
    (hC : ifUp d.st i = true → K.C i ((d.link i).bufs 0)) (hk : (K.e.ifs i).key = none) :
    Steps K d (d.ifaceDown K.e i) := by
  unfold Daemon.ifaceDown
  by_cases hu : ifUp d.st i = true
  · rw [if_pos hu]
    refine (h.nodeWith hK _ _ (fun nc => hK.free _ _ rfl) (fun s hs hi hn => ?_) fun l x => ownBuf_quiet hF _ l x).1
    have t := flap_down hK.rules hs i
    have hup : ∀ j, ifUp s j = ifUp d.st j := fun j => by unfold ifUp getIf; rw [hi]
    refine ⟨t.keys, ?_, t.core, t.out, fun j done fresh l hl hd => ?_, fun j hj => ?_⟩
    · rw [t.now, hn]
      exact h.time
    · rw [t.up]
      unfold ownBuf
      by_cases hji : j = i
      · subst hji
        rw [hup, hu] at hl
        have hg : (getIf s j).isSome = true := by
          have := hup j
          rw [hu] at this
          unfold ifUp at this
          cases hg : getIf s j with
          | none => rw [hg] at this; cases this
          | some x => rfl
        rw [if_pos ⟨rfl, hg⟩, if_pos rfl]
        exact (hK.links _).ldown _ _ _ hF (by rw [hd]; exact hC hu) hl
      · rw [if_neg fun h => hji h.1, if_neg hji]
        exact hl
    · rw [t.up] at hj
      by_cases hji : j = i
      · exact .inr (hji ▸ hk)
      · rw [if_neg fun h => hji h.1] at hj
        exact .inl hj
  · rw [if_neg hu]
    exact (Does.pure h).steps

theorem DInv.ifaceUp {d : Daemon} (h : DInv K d) (i : IfId) (mtu fi : Nat) (full : Bool) (hF : K.F i) (hm : mtu ≤ 65536) :
    Steps K d (d.ifaceUp K.e i mtu fi full) := by
  unfold Daemon.ifaceUp
  by_cases hu : (getIf d.st i).isSome = true ∧ ifUp d.st i = false
  · rw [if_pos hu]
    refine (h.nodeWith hK _ _ (fun nc => hK.free _ _ rfl) (fun s hs hi hn => ?_) fun l x => ownBuf_quiet hF _ l x).1
    have t := flap_up hK.rules hs i full
    have hup : ∀ j, ifUp s j = ifUp d.st j := fun j => by unfold ifUp getIf; rw [hi]
    have hg : (getIf s i).isSome = true := by
      unfold getIf
      rw [hi]
      exact hu.1
    refine ⟨t.keys, ?_, t.core, t.out, fun j done fresh l hl hd => ?_, fun j hj => ?_⟩
    · rw [t.now, hn]
      exact h.time
    · rw [t.up]
      unfold ownBuf
      by_cases hji : j = i
      · subst hji
        rw [hup, hu.2] at hl
        rw [if_pos ⟨rfl, hg⟩, if_pos rfl]
        exact (hK.links _).lup _ _ _ _ _ hF hm hl
      · rw [if_neg fun h => hji h.1, if_neg hji]
        exact hl
    · rw [t.up] at hj
      by_cases hji : j = i
      · subst hji
        rw [if_pos ⟨rfl, hg⟩] at hj
        cases hj
      · rw [if_neg fun h => hji h.1] at hj
        exact .inl hj
  · rw [if_neg hu]
    exact (Does.pure h).steps

end
end Babel
