import Verif.Converter.Props
import Mathlib.Algebra.BigOperators.Group.Finset.Basic

/-!
# Converters on the old hub and on the outposts, connected by IBC (C139)

* The hub has the cw20 token, each outpost an IBC voucher of it; each chain has a converter (and the pair in front of
  it), as in `Converter/Model.lean`.
* IBC transfers (a dependency, not in the repository: ICS-20 and the cw20-ics20 contract): sending vouchers destroys
  them and puts a packet on its way; receiving it on the hub releases tokens from the escrow of the outpost's channel;
  a packet that times out or is refused gives the vouchers back.  Towards an outpost tokens go to the escrow and vouchers
  are created.  Packets arrive in any order, at any time, each once.
* The converters of the outposts are configured to send to the converter of the hub
  (`OutpostBurnParams::terra_burn_addr`).
* New ASTRO moves only within a chain here.
-/

namespace Verif.Converter

open Verif

variable {O A D : Type} [DecidableEq O] [DecidableEq A] [DecidableEq D]

/-- An ICS-20 packet on its way. -/
structure Packet (O A : Type) where
  toHub : Bool
  o : O
  src : A
  dst : A
  n : Nat
  deriving DecidableEq

/-- The converters' configurations and addresses, and the escrow accounts of the channels on the hub. -/
structure NetCfg (O A D : Type) where
  hub : Cfg A D
  hconv : A
  hpair : A
  out : O → Cfg A D
  oconv : O → A
  opair : O → A
  esc : O → A

/-- All chains and the packets on their way. -/
structure Net (O A D : Type) where
  hub : State A D
  out : O → State A D
  flights : List (Packet O A)

/-- What can happen: transactions on the hub and on the outposts, IBC transfers by users, arrival and failure of the
`j`-th packet. -/
inductive NOp (O A D : Type) where
  | hub (sender : A) (op : Op A D)
  | out (o : O) (sender : A) (op : Op A D)
  | toHub (o : O) (sender dst : A) (n : Nat)
  | fromHub (o : O) (sender dst : A) (n : Nat)
  | recv (j : Nat)
  | fail (j : Nat)

/-- Refunds are events of the network, not transactions. -/
def notRefund : Op A D → Bool
  | .refund _ => false
  | _ => true

/-- The packet sent by `TransferForBurning`, contracts/periphery/astro_converter/src/contract.rs:186-200. -/
def burnPackets (k : NetCfg O A D) (s : State A D) (o : O) : Op A D → List (Packet O A)
  | .transferForBurning _ _ => [⟨true, o, k.oconv o, k.hconv, s.bal (k.out o).old (k.oconv o)⟩]
  | _ => []

/-- Old tokens of one chain. -/
def setOld (c : Cfg A D) (s : State A D) (l : A → Nat) : State A D := { s with bal := Function.update s.bal c.old l }

/-- Arrival of a packet. -/
def arrive (k : NetCfg O A D) (s : Net O A D) (p : Packet O A) (rest : List (Packet O A)) : Res (Net O A D) :=
  if p.toHub then do
    let h ← send s.hub k.hub.old (k.esc p.o) p.dst p.n
    .ok { s with hub := h, flights := rest }
  else
    .ok { s with
          out := Function.update s.out p.o
            (setOld (k.out p.o) (s.out p.o) (credit ((s.out p.o).bal (k.out p.o).old) p.dst p.n))
          flights := rest }

/-- Failure of a packet.  What a converter gets back is a `refund`. -/
def giveBack (k : NetCfg O A D) (s : Net O A D) (p : Packet O A) (rest : List (Packet O A)) : Res (Net O A D) :=
  if p.toHub then
    if p.src = k.oconv p.o then do
      let st ← exec (k.out p.o) (k.oconv p.o) (k.opair p.o) (s.out p.o) p.src (.refund p.n)
      .ok { s with out := Function.update s.out p.o st, flights := rest }
    else
      .ok { s with
            out := Function.update s.out p.o
              (setOld (k.out p.o) (s.out p.o) (credit ((s.out p.o).bal (k.out p.o).old) p.src p.n))
            flights := rest }
  else do
    let h ← send s.hub k.hub.old (k.esc p.o) p.src p.n
    .ok { s with hub := h, flights := rest }

/-- One event.  The converters, the pairs and the escrow accounts sign nothing. -/
def nexec [Fintype O] (k : NetCfg O A D) (s : Net O A D) : NOp O A D → Res (Net O A D)
  | .hub a op => do
    require (a ≠ k.hconv ∧ a ≠ k.hpair ∧ ∀ o, a ≠ k.esc o) .unauthorized
    require (notRefund op = true) .unauthorized
    let h ← exec k.hub k.hconv k.hpair s.hub a op
    .ok { s with hub := h }
  | .out o a op => do
    require (a ≠ k.oconv o ∧ a ≠ k.opair o) .unauthorized
    require (notRefund op = true) .unauthorized
    let st ← exec (k.out o) (k.oconv o) (k.opair o) (s.out o) a op
    .ok { s with out := Function.update s.out o st, flights := s.flights ++ burnPackets k (s.out o) o op }
  | .toHub o a dst n => do
    require (a ≠ k.oconv o ∧ a ≠ k.opair o) .unauthorized
    require (n ≠ 0) (.invalid "invalid coins")
    let l ← debit ((s.out o).bal (k.out o).old) a n
    .ok { s with
          out := Function.update s.out o (setOld (k.out o) (s.out o) l)
          flights := s.flights ++ [⟨true, o, a, dst, n⟩] }
  | .fromHub o a dst n => do
    require (a ≠ k.hconv ∧ a ≠ k.hpair ∧ ∀ o, a ≠ k.esc o) .unauthorized
    let h ← send s.hub k.hub.old a (k.esc o) n
    .ok { s with hub := h, flights := s.flights ++ [⟨false, o, a, dst, n⟩] }
  | .recv j =>
    match s.flights[j]? with
    | none => .error (.invalid "no packet")
    | some p => arrive k s p (s.flights.eraseIdx j)
  | .fail j =>
    match s.flights[j]? with
    | none => .error (.invalid "no packet")
    | some p => giveBack k s p (s.flights.eraseIdx j)

/-- A history. -/
def nrun [Fintype O] (k : NetCfg O A D) (s : Net O A D) : List (NOp O A D) → Net O A D
  | [] => s
  | o :: os => nrun k (commit' s (nexec k s o)) os

/-! ## Specification -/

/-- The configuration is one that `instantiate` accepts, and addresses are different where they belong to different
contracts. -/
structure Valid (ibc : D → Bool) (k : NetCfg O A D) : Prop where
  hub : ∃ t new, instantiate ibc (.token t) new false = .ok k.hub
  out : ∀ o, ∃ d new, instantiate ibc (.native d) new true = .ok (k.out o)
  esc : ∀ o p, k.esc o = k.esc p → o = p
  escC : ∀ o, k.esc o ≠ k.hconv ∧ k.esc o ≠ k.hpair

/-- Amount of the packets satisfying a condition. -/
def amount (f : Packet O A → Bool) (l : List (Packet O A)) : Nat := ((l.filter f).map (·.n)).sum

/-- Packets of converters. -/
def own (k : NetCfg O A D) (p : Packet O A) : Bool := p.toHub && decide (p.src = k.oconv p.o)

/-- Old ASTRO out of circulation: held by the converters, on its way from converters to the hub, or burnt. -/
def retired [Fintype O] (k : NetCfg O A D) (s : Net O A D) : Nat :=
  s.hub.bal k.hub.old k.hconv + s.hub.burned + ∑ o, (s.out o).bal (k.out o).old (k.oconv o) + amount (own k) s.flights

/-- New ASTRO held by the converters. -/
def newHeld [Fintype O] (k : NetCfg O A D) (s : Net O A D) : Nat :=
  s.hub.bal (.native k.hub.new) k.hconv + ∑ o, (s.out o).bal (.native (k.out o).new) (k.oconv o)

/-- Packets to or from an outpost. -/
def ofOut (o : O) (p : Packet O A) : Bool := decide (p.o = o)

/-- Nothing on its way, vouchers covered. -/
structure Start [Fintype A] (k : NetCfg O A D) (s : Net O A D) : Prop where
  flights : s.flights = []
  covered : ∀ o, ∑ a, (s.out o).bal (k.out o).old a ≤ s.hub.bal k.hub.old (k.esc o)

/-! ## One chain -/

/-- What a transaction does to the old tokens of a chain and to the converter. -/
structure Eff [Fintype A] (c : Cfg A D) (me sender : A) (s s' : State A D) : Prop where
  sum : ∑ a, s'.bal c.old a + s'.burned + s'.bridged = ∑ a, s.bal c.old a + s.burned + s.bridged
  stay : s.bal c.old me + s.burned + s.bridged ≤ s'.bal c.old me + s'.burned + s'.bridged
  paid : s.bal (.native c.new) me + s.bal c.old me + s.burned + s.bridged ≤
    s'.bal (.native c.new) me + s'.bal c.old me + s'.burned + s'.bridged
  others : ∀ a, a ≠ sender → a ≠ me → s.bal c.old a ≤ s'.bal c.old a

variable [Fintype A]

theorem sum_zero (l : A → Nat) (a : A) : ∑ x, Function.update l a 0 x + l a = ∑ x, l x := by
  rw [← Finset.add_sum_erase _ _ (Finset.mem_univ a), ← Finset.add_sum_erase (a := a) _ l (Finset.mem_univ a),
    Function.update_self, Finset.sum_congr rfl fun x hx => by rw [Function.update_of_ne (Finset.ne_of_mem_erase hx)],
    Nat.zero_add, Nat.add_comm]

omit [Fintype A] in
theorem send_old {s s' : State A D} {i j : Info A D} {src dst : A} {n : Nat} (h : send s i src dst n = .ok s') :
    s'.burned = s.burned ∧ s'.bridged = s.bridged ∧ (i ≠ j → s'.bal j = s.bal j) ∧
      (i = j → move (s.bal j) src dst n = .ok (s'.bal j)) := by
  unfold send at h
  simp only [bind_ok_iff, require_ok, exists_const, Except.ok.injEq] at h
  obtain ⟨_, l, hl, rfl⟩ := h
  refine ⟨rfl, rfl, fun hij => ?_, fun hij => ?_⟩
  · simp only
    rw [Function.update_of_ne (Ne.symm hij)]
  · subst hij
    simp only [Function.update_self]
    exact hl

theorem taken_eff {c : Cfg A D} (hne : c.old ≠ .native c.new) {me sender : A} {s s' : State A D}
    (hb : s'.bal = Function.update s.bal c.old (Function.update (s.bal c.old) me 0))
    (hx : s'.burned + s'.bridged = s.burned + s.bridged + s.bal c.old me) : Eff c me sender s s' := by
  have e1 : s'.bal c.old = Function.update (s.bal c.old) me 0 := by rw [hb, Function.update_self]
  have e2 : s'.bal (.native c.new) = s.bal (.native c.new) := by rw [hb, Function.update_of_ne (Ne.symm hne)]
  have e3 := sum_zero (s.bal c.old) me
  refine ⟨?_, ?_, ?_, fun a _ hm => ?_⟩
  · rw [e1]; omega
  · rw [e1, Function.update_self]; omega
  · rw [e1, e2, Function.update_self]; omega
  · rw [e1, Function.update_of_ne hm]

theorem exec_eff {c : Cfg A D} (hne : c.old ≠ .native c.new) {me pair : A} {s s' : State A D} {sender : A}
    {o : Op A D} (hs : sender ≠ me) (hr : notRefund o = true) (h : exec c me pair s sender o = .ok s') :
    Eff c me sender s s' ∧
      ((∀ f t, o ≠ .transferForBurning f t) → s'.bridged = s.bridged) ∧ ((∀ f, o ≠ .burn f) → s'.burned = s.burned) ∧
      (∀ f t, o = .transferForBurning f t → s'.bridged = s.bridged + s.bal c.old me ∧ ∃ d, c.old = .native d) ∧
      ∀ f, o = .burn f → ∃ a, c.old = .token a := by
  have conv : ∀ {r n}, Converted c me s s' sender r n →
      Eff c me sender s s' ∧ s'.bridged = s.bridged ∧ s'.burned = s.burned := by
    intro r n hcv
    have h1 := move_apply hcv.new me
    have h2 := move_apply hcv.old me
    have h3 := move_le hcv.new
    have h4 := hcv.burned
    have h5 := hcv.bridged
    have h6 := sum_move hcv.old
    rw [if_pos rfl] at h1
    rw [if_neg (Ne.symm hs), if_pos rfl] at h2
    refine ⟨⟨by omega, by omega, ?_, fun a h7 h8 => ?_⟩, h5, h4⟩
    · split at h1 <;> omega
    · rw [move_apply hcv.old a, if_neg h7]
      omega
  cases o with
  | convert funds r =>
    have : ∃ r n, Converted c me s s' sender r n := by
      simp only [exec, bind_ok_iff] at h
      obtain ⟨s1, h1, h2⟩ := h
      unfold convert at h2
      split at h2
      · rename_i d hd
        rw [bind_ok_iff] at h2
        obtain ⟨n, h3, h4⟩ := h2
        obtain ⟨rfl, _⟩ := mustPay_ok h3
        refine ⟨_, n, two_sends hne ?_ h4⟩
        rw [hd]
        exact sendAll_one h1
      · simp at h2
    obtain ⟨r, n, hc⟩ := this
    obtain ⟨h1, h2, h3⟩ := conv hc
    exact ⟨h1, fun _ => h2, fun _ => h3, nofun, nofun⟩
  | cw20Send t n r =>
    have : ∃ r n, Converted c me s s' sender r n := by
      simp only [exec, bind_ok_iff] at h
      obtain ⟨s1, h1, h2⟩ := h
      unfold cw20Receive at h2
      split at h2
      · rename_i a ha
        simp only [bind_ok_iff, require_ok, exists_const] at h2
        obtain ⟨rfl, h3⟩ := h2
        refine ⟨_, n, two_sends hne ?_ h3⟩
        rw [ha]
        exact h1
      · simp at h2
    obtain ⟨r, n, hc⟩ := this
    obtain ⟨h1, h2, h3⟩ := conv hc
    exact ⟨h1, fun _ => h2, fun _ => h3, nofun, nofun⟩
  | forged claimed n r =>
    obtain ⟨e, he⟩ := C62_forged_refused c me pair s sender claimed n r
    rw [he] at h
    simp at h
  | transferForBurning funds t =>
    simp only [exec, bind_ok_iff] at h
    obtain ⟨s1, h1, h2⟩ := h
    obtain ⟨rfl, _, hd, _, _, rfl⟩ := transferForBurning_ok h2
    simp only [sendAll, Except.ok.injEq] at h1
    subst h1
    exact ⟨taken_eff hne rfl (by simp only; omega), fun h => absurd rfl (h _ _), fun _ => rfl,
      fun _ _ _ => ⟨rfl, hd⟩, nofun⟩
  | burn funds =>
    simp only [exec, bind_ok_iff] at h
    obtain ⟨s1, h1, h2⟩ := h
    obtain ⟨rfl, _, ha, rfl⟩ := burn_ok h2
    simp only [sendAll, Except.ok.injEq] at h1
    subst h1
    exact ⟨taken_eff hne rfl (by simp only; omega), fun _ => rfl, fun h => absurd rfl (h _), nofun, fun _ _ => ha⟩
  | pairNative offer n funds dst =>
    obtain ⟨h1, h2, h3⟩ := conv (pairNative_converted hne h).2
    exact ⟨h1, fun _ => h2, fun _ => h3, nofun, nofun⟩
  | pairCw20 t n dst =>
    obtain ⟨h1, h2, h3⟩ := conv (pairCw20_converted hne h).2
    exact ⟨h1, fun _ => h2, fun _ => h3, nofun, nofun⟩
  | refund n => simp [notRefund] at hr
  | transfer i dst n =>
    have hm := send_mono (me := me) h hs
    obtain ⟨b1, b2, b3, b4⟩ := send_old (j := c.old) h
    have b5 := hm c.old
    have b6 := hm (.native c.new)
    refine ⟨⟨?_, by omega, by omega, fun a h1 h2 => ?_⟩, fun _ => b2, fun _ => b1, nofun, nofun⟩
    · by_cases hi : i = c.old
      · have := sum_move (b4 hi)
        omega
      · rw [b3 hi]; omega
    · by_cases hi : i = c.old
      · rw [move_apply (b4 hi) a, if_neg h1]; omega
      · rw [b3 hi]

/-! ## Sums -/

section Sums

omit [Fintype A] [DecidableEq A] [DecidableEq D] in
theorem sum_out [Fintype O] (g : O → State A D → Nat) (out : O → State A D) (o : O) (st : State A D) :
    ∑ x, g x (Function.update out o st x) + g o (out o) = ∑ x, g x (out x) + g o st := by
  rw [← Finset.add_sum_erase _ (fun x => g x (Function.update out o st x)) (Finset.mem_univ o),
    ← Finset.add_sum_erase _ (fun x => g x (out x)) (Finset.mem_univ o), Function.update_self,
    Finset.sum_congr rfl fun x hx => by rw [Function.update_of_ne (Finset.ne_of_mem_erase hx)]]
  omega

omit [DecidableEq O] [DecidableEq A] [Fintype A] in
theorem amount_append (f : Packet O A → Bool) (l l' : List (Packet O A)) :
    amount f (l ++ l') = amount f l + amount f l' := by
  unfold amount
  simp

omit [DecidableEq O] [DecidableEq A] [Fintype A] in
theorem amount_one (f : Packet O A → Bool) (p : Packet O A) : amount f [p] = if f p then p.n else 0 := by
  unfold amount
  by_cases h : f p = true <;> simp [h]

omit [DecidableEq O] [DecidableEq A] [Fintype A] in
theorem amount_erase (f : Packet O A → Bool) : ∀ {l : List (Packet O A)} {j : Nat} {p : Packet O A},
    l[j]? = some p → amount f l = amount f (l.eraseIdx j) + if f p then p.n else 0
  | [], j, p, h => by simp at h
  | q :: l, 0, p, h => by
    simp only [List.getElem?_cons_zero, Option.some.injEq] at h
    subst h
    rw [← amount_one, List.eraseIdx_cons_zero, Nat.add_comm, ← amount_append]
    rfl
  | q :: l, j + 1, p, h => by
    simp only [List.getElem?_cons_succ] at h
    have := amount_erase f h
    rw [List.eraseIdx_cons_succ, ← List.singleton_append, amount_append, this, ← Nat.add_assoc, ← amount_append]
    rfl

end Sums

/-! ## The invariant -/

/-- What holds of the packets and the escrows. -/
structure Inv (k : NetCfg O A D) (s : Net O A D) : Prop where
  covered : ∀ o, ∑ a, (s.out o).bal (k.out o).old a + amount (ofOut o) s.flights ≤ s.hub.bal k.hub.old (k.esc o)
  bridged : ∀ o, amount (fun p => own k p && ofOut o p) s.flights ≤ (s.out o).bridged
  pos : ∀ p ∈ s.flights, p.n ≠ 0
  dst : ∀ p ∈ s.flights, own k p = true → p.dst = k.hconv

omit [DecidableEq D] in
theorem Start.inv {k : NetCfg O A D} {s : Net O A D} (h : Start k s) : Inv k s := by
  refine ⟨fun o => ?_, fun o => ?_, fun p hp => ?_, fun p hp => ?_⟩
  · rw [h.flights]
    exact h.covered o
  · rw [h.flights]
    exact Nat.zero_le _
  · rw [h.flights] at hp
    simp at hp
  · rw [h.flights] at hp
    simp at hp

omit [DecidableEq O] [Fintype A] in
theorem Valid.hubToken {ibc : D → Bool} {k : NetCfg O A D} (h : Valid ibc k) :
    (∃ t, k.hub.old = .token t) ∧ k.hub.old ≠ .native k.hub.new := by
  obtain ⟨t, new, hi⟩ := h.hub
  obtain ⟨h1, _, h3⟩ := instantiate_ok hi
  exact ⟨⟨t, h1⟩, h3⟩

omit [DecidableEq O] [Fintype A] in
theorem Valid.outNative {ibc : D → Bool} {k : NetCfg O A D} (h : Valid ibc k) (o : O) :
    (∃ d, (k.out o).old = .native d) ∧ (k.out o).old ≠ .native (k.out o).new ∧ (k.out o).burnParams = true := by
  obtain ⟨d, new, hi⟩ := h.out o
  obtain ⟨h1, _, h3⟩ := instantiate_ok hi
  refine ⟨⟨d, h1⟩, h3, ?_⟩
  unfold instantiate at hi
  simp only [bind_ok_iff, require_ok, exists_const, Except.ok.injEq] at hi
  obtain ⟨_, _, _, hi⟩ := hi
  rw [← hi]

/-- What one event does. -/
structure Step [Fintype O] (k : NetCfg O A D) (s s' : Net O A D) : Prop where
  inv : Inv k s'
  stay : retired k s ≤ retired k s'
  paid : newHeld k s + retired k s ≤ newHeld k s' + retired k s'
  supply : ∑ a, s'.hub.bal k.hub.old a + s'.hub.burned = ∑ a, s.hub.bal k.hub.old a + s.hub.burned

/-- A move of old tokens on the hub. -/
theorem hubMove_step [Fintype O] {k : NetCfg O A D} (hne : k.hub.old ≠ .native k.hub.new) {s : Net O A D}
    {h' : State A D} {fl : List (Packet O A)}
    {src dst : A} {n : Nat} (h : send s.hub k.hub.old src dst n = .ok h')
    (hsrc : src ≠ k.hconv)
    (hown : amount (own k) s.flights ≤ amount (own k) fl + if dst = k.hconv then n else 0)
    (hinv : Inv k { s with hub := h', flights := fl }) :
    Step k s { s with hub := h', flights := fl } := by
  obtain ⟨b1, b2, _, b4⟩ := send_old (j := k.hub.old) h
  obtain ⟨_, _, b3, _⟩ := send_old (j := .native k.hub.new) h
  have b4 := b4 rfl
  have b5 := move_apply b4 k.hconv
  rw [if_neg (Ne.symm hsrc)] at b5
  have b6 := sum_move b4
  have b7 : h'.bal (.native k.hub.new) k.hconv = s.hub.bal (.native k.hub.new) k.hconv := by rw [b3 hne]
  have key : retired k s ≤ retired k { s with hub := h', flights := fl } := by
    unfold retired
    simp only
    by_cases hd : dst = k.hconv
    · rw [if_pos hd.symm] at b5
      rw [if_pos hd] at hown
      omega
    · rw [if_neg (Ne.symm hd)] at b5
      rw [if_neg hd] at hown
      omega
  refine ⟨hinv, key, ?_, by simp only; omega⟩
  have : newHeld k { s with hub := h', flights := fl } = newHeld k s := by
    unfold newHeld
    simp only
    rw [b7]
  omega

/-- A change of the vouchers on an outpost that is not a transaction of the converter. -/
theorem voucher_step [Fintype O] {k : NetCfg O A D} {s : Net O A D} {o : O} (hne : (k.out o).old ≠ .native (k.out o).new)
    {st : State A D} {l : A → Nat} {fl : List (Packet O A)}
    (hst : st.bal = Function.update (s.out o).bal (k.out o).old l)
    (hown : (s.out o).bal (k.out o).old (k.oconv o) + amount (own k) s.flights ≤ l (k.oconv o) + amount (own k) fl)
    (hinv : Inv k { s with out := Function.update s.out o st, flights := fl }) :
    Step k s { s with out := Function.update s.out o st, flights := fl } := by
  have e1 := sum_out (fun x (t : State A D) => t.bal (k.out x).old (k.oconv x)) s.out o st
  have e2 := sum_out (fun x (t : State A D) => t.bal (.native (k.out x).new) (k.oconv x)) s.out o st
  have e3 : st.bal (k.out o).old (k.oconv o) = l (k.oconv o) := by rw [hst, Function.update_self]
  have e4 : st.bal (.native (k.out o).new) (k.oconv o) = (s.out o).bal (.native (k.out o).new) (k.oconv o) := by
    rw [hst, Function.update_of_ne (Ne.symm hne)]
  have key : retired k s ≤ retired k { s with out := Function.update s.out o st, flights := fl } := by
    unfold retired
    simp only
    omega
  refine ⟨hinv, key, ?_, rfl⟩
  have : newHeld k { s with out := Function.update s.out o st, flights := fl } = newHeld k s := by
    unfold newHeld
    simp only
    omega
  omega

omit [DecidableEq O] [DecidableEq A] [DecidableEq D] [Fintype A] in
theorem mem_erase {l : List (Packet O A)} {j : Nat} {p : Packet O A} (h : p ∈ l.eraseIdx j) : p ∈ l :=
  (List.eraseIdx_sublist l j).mem h

theorem nexec_step [Fintype O] {ibc : D → Bool} {k : NetCfg O A D} (hv : Valid ibc k) {s s' : Net O A D} (hi : Inv k s)
    {op : NOp O A D} (h : nexec k s op = .ok s') : Step k s s' := by
  obtain ⟨⟨t, ht⟩, hhub⟩ := hv.hubToken
  cases op with
  | hub a op =>
    simp only [nexec, bind_ok_iff, require_ok, exists_const, Except.ok.injEq] at h
    obtain ⟨⟨ha, _, he⟩, hr, h', hx, rfl⟩ := h
    obtain ⟨eff, e1, e2, e3, _⟩ := exec_eff hhub ha hr hx
    have hb : h'.bridged = s.hub.bridged := by
      apply e1
      rintro f t rfl
      obtain ⟨_, d, hd⟩ := e3 f t rfl
      rw [ht] at hd
      exact absurd hd (by simp)
    have a1 := eff.sum
    have a2 := eff.stay
    have a3 := eff.paid
    refine ⟨⟨fun o => ?_, hi.bridged, hi.pos, hi.dst⟩, ?_, ?_, by simp only; omega⟩
    · exact le_trans (hi.covered o) (eff.others _ (he o).symm (hv.escC o).1)
    · unfold retired
      simp only
      omega
    · unfold retired newHeld
      simp only
      omega
  | out o a op =>
    obtain ⟨⟨d, hd⟩, hout, _⟩ := hv.outNative o
    simp only [nexec, bind_ok_iff, require_ok, exists_const, Except.ok.injEq] at h
    obtain ⟨⟨ha, _⟩, hr, st, hx, rfl⟩ := h
    obtain ⟨eff, e1, e2, e3, e4⟩ := exec_eff hout ha hr hx
    have hb : st.burned = (s.out o).burned := by
      apply e2
      rintro f rfl
      obtain ⟨t, ht⟩ := e4 f rfl
      rw [hd] at ht
      exact absurd ht (by simp)
    have hp : ∀ p ∈ burnPackets k (s.out o) o op, p.o = o ∧ own k p = true ∧ p.dst = k.hconv ∧ p.n ≠ 0 := by
      intro p hp
      unfold burnPackets at hp
      split at hp
      · simp only [List.mem_singleton] at hp
        subst hp
        refine ⟨rfl, by simp [own], rfl, ?_⟩
        simp only [exec, bind_ok_iff] at hx
        obtain ⟨s1, h1, h2⟩ := hx
        obtain ⟨rfl, hz, _⟩ := transferForBurning_ok h2
        simp only [sendAll, Except.ok.injEq] at h1
        subst h1
        exact hz
      · simp at hp
    have hbr : st.bridged = (s.out o).bridged + ((burnPackets k (s.out o) o op).map (·.n)).sum := by
      unfold burnPackets
      split
      · rename_i f t
        simp [(e3 f t rfl).1]
      · rename_i hno
        simpa using e1 hno
    have hall : ∀ f : Packet O A → Bool, (∀ p ∈ burnPackets k (s.out o) o op, f p = true) →
        amount f (burnPackets k (s.out o) o op) = ((burnPackets k (s.out o) o op).map (·.n)).sum := by
      intro f hf
      unfold amount
      rw [List.filter_eq_self.2 hf]
    have hnone : ∀ f : Packet O A → Bool, (∀ p ∈ burnPackets k (s.out o) o op, f p = false) →
        amount f (burnPackets k (s.out o) o op) = 0 := by
      intro f hf
      unfold amount
      rw [List.filter_eq_nil_iff.2 fun p hp => by simp [hf p hp]]
      rfl
    have a1 := eff.sum
    have a2 := eff.stay
    have a3 := eff.paid
    have o1 := sum_out (fun x (t : State A D) => t.bal (k.out x).old (k.oconv x)) s.out o st
    have o2 := sum_out (fun x (t : State A D) => t.bal (.native (k.out x).new) (k.oconv x)) s.out o st
    have o3 := amount_append (own k) s.flights (burnPackets k (s.out o) o op)
    rw [hall (own k) fun p h => (hp p h).2.1] at o3
    refine ⟨⟨fun x => ?_, fun x => ?_, fun p hm => ?_, fun p hm => ?_⟩, ?_, ?_, rfl⟩
    · have hc := hi.covered x
      simp only
      rw [amount_append]
      by_cases hxo : x = o
      · subst hxo
        rw [Function.update_self, hall _ fun p h => by simp [ofOut, (hp p h).1]]
        omega
      · rw [Function.update_of_ne hxo, hnone _ fun p h => by simp [ofOut, (hp p h).1, Ne.symm hxo]]
        omega
    · have hc := hi.bridged x
      simp only
      rw [amount_append]
      by_cases hxo : x = o
      · subst hxo
        rw [Function.update_self, hall _ fun p h => by simp [ofOut, (hp p h).1, (hp p h).2.1]]
        omega
      · rw [Function.update_of_ne hxo, hnone _ fun p h => by simp [ofOut, (hp p h).1, Ne.symm hxo]]
        omega
    · rcases List.mem_append.1 hm with hm | hm
      · exact hi.pos p hm
      · exact (hp p hm).2.2.2
    · rcases List.mem_append.1 hm with hm | hm
      · exact hi.dst p hm
      · exact fun _ => (hp p hm).2.2.1
    · unfold retired
      simp only
      omega
    · unfold retired newHeld
      simp only
      omega
  | toHub o a dst n =>
    obtain ⟨_, hout, _⟩ := hv.outNative o
    simp only [nexec, bind_ok_iff, require_ok, exists_const, Except.ok.injEq] at h
    obtain ⟨⟨ha, _⟩, hn, l, hl, rfl⟩ := h
    have d1 := debit_apply hl (k.oconv o)
    rw [if_neg (Ne.symm ha)] at d1
    have d2 := sum_debit hl
    have ho : own k (⟨true, o, a, dst, n⟩ : Packet O A) = false := by simp [own, ha]
    refine voucher_step (l := l) hout rfl ?_ ⟨fun x => ?_, fun x => ?_, fun p hm => ?_, fun p hm => ?_⟩
    · rw [amount_append, amount_one, ho]
      simp only [Bool.false_eq_true, if_false]
      omega
    · have hc := hi.covered x
      simp only
      rw [amount_append, amount_one]
      by_cases hxo : x = o
      · subst hxo
        simp only [Function.update_self, setOld, ofOut, decide_true, if_true]
        omega
      · simp only [Function.update_of_ne hxo, ofOut, Ne.symm hxo, decide_false, Bool.false_eq_true, if_false]
        omega
    · have hc := hi.bridged x
      simp only
      rw [amount_append, amount_one, ho]
      simp only [Bool.false_and, Bool.false_eq_true, if_false]
      by_cases hxo : x = o
      · subst hxo
        simp only [Function.update_self, setOld]
        omega
      · simp only [Function.update_of_ne hxo]
        omega
    · rcases List.mem_append.1 hm with hm | hm
      · exact hi.pos p hm
      · simp only [List.mem_singleton] at hm
        subst hm
        exact hn
    · rcases List.mem_append.1 hm with hm | hm
      · exact hi.dst p hm
      · simp only [List.mem_singleton] at hm
        subst hm
        rw [ho]
        nofun
  | fromHub o a dst n =>
    simp only [nexec, bind_ok_iff, require_ok, exists_const, Except.ok.injEq] at h
    obtain ⟨⟨ha, _, he⟩, h', hx, rfl⟩ := h
    have hn : n ≠ 0 := by
      unfold send at hx
      simp only [bind_ok_iff, require_ok, exists_const] at hx
      exact hx.1
    obtain ⟨_, _, _, b4⟩ := send_old (j := k.hub.old) hx
    have b4 := b4 rfl
    refine hubMove_step hhub hx ha ?_ ⟨fun x => ?_, fun x => ?_, fun p hm => ?_, fun p hm => ?_⟩
    · rw [amount_append]
      omega
    · have hc := hi.covered x
      have b5 := move_apply b4 (k.esc x)
      rw [if_neg (he x).symm] at b5
      simp only
      rw [amount_append, amount_one]
      by_cases hxo : x = o
      · subst hxo
        rw [if_pos rfl] at b5
        simp only [ofOut, decide_true, if_true]
        omega
      · simp only [ofOut, Ne.symm hxo, decide_false, Bool.false_eq_true, if_false]
        omega
    · have hc := hi.bridged x
      simp only
      rw [amount_append, amount_one]
      simp only [own, Bool.false_and, Bool.false_eq_true, if_false]
      exact hc
    · rcases List.mem_append.1 hm with hm | hm
      · exact hi.pos p hm
      · simp only [List.mem_singleton] at hm
        subst hm
        exact hn
    · rcases List.mem_append.1 hm with hm | hm
      · exact hi.dst p hm
      · simp only [List.mem_singleton] at hm
        subst hm
        simp [own]
  | recv j =>
    simp only [nexec] at h
    split at h
    · simp at h
    rename_i p hp
    have hmem : p ∈ s.flights := List.mem_of_getElem? hp
    have hpos : ∀ q ∈ s.flights.eraseIdx j, q.n ≠ 0 := fun q hq => hi.pos q (mem_erase hq)
    have hdst : ∀ q ∈ s.flights.eraseIdx j, own k q = true → q.dst = k.hconv := fun q hq => hi.dst q (mem_erase hq)
    have hbr : ∀ x, amount (fun p => own k p && ofOut x p) (s.flights.eraseIdx j) ≤ (s.out x).bridged := fun x => by
      have := hi.bridged x
      rw [amount_erase _ hp] at this
      omega
    have ho := amount_erase (own k) hp
    unfold arrive at h
    split at h
    · simp only [bind_ok_iff, Except.ok.injEq] at h
      obtain ⟨h', hx, rfl⟩ := h
      obtain ⟨_, _, _, b4⟩ := send_old (j := k.hub.old) hx
      have b4 := b4 rfl
      have b6 := move_le b4
      refine hubMove_step hhub hx (hv.escC _).1 ?_ ⟨fun x => ?_, hbr, hpos, hdst⟩
      · rw [ho]
        by_cases hown : own k p = true
        · rw [if_pos hown, if_pos (hi.dst p hmem hown)]
        · rw [if_neg hown]
          omega
      · have hc := hi.covered x
        have hc0 := hi.covered p.o
        rw [amount_erase _ hp] at hc hc0
        have b5 := move_apply b4 (k.esc x)
        simp only
        by_cases hxo : x = p.o
        · subst hxo
          simp only [ofOut, decide_true, if_true] at hc
          rw [if_pos rfl] at b5
          omega
        · rw [if_neg fun e => hxo (hv.esc _ _ e)] at b5
          omega
    · rename_i hth
      simp only [Except.ok.injEq] at h
      subst h
      obtain ⟨_, hout, _⟩ := hv.outNative p.o
      have hown : own k p = false := by simp [own, hth]
      rw [hown] at ho
      simp only [Bool.false_eq_true, if_false] at ho
      refine voucher_step (l := credit ((s.out p.o).bal (k.out p.o).old) p.dst p.n) hout rfl ?_
        ⟨fun x => ?_, fun x => ?_, hpos, hdst⟩
      · rw [credit_apply]
        split <;> omega
      · have hc := hi.covered x
        rw [amount_erase _ hp] at hc
        simp only
        by_cases hxo : x = p.o
        · subst hxo
          simp only [ofOut, decide_true, if_true] at hc
          simp only [Function.update_self, setOld]
          rw [sum_credit]
          omega
        · rw [Function.update_of_ne hxo]
          omega
      · have := hbr x
        simp only
        by_cases hxo : x = p.o
        · subst hxo
          simp only [Function.update_self, setOld]
          exact this
        · rw [Function.update_of_ne hxo]
          exact this
  | fail j =>
    simp only [nexec] at h
    split at h
    · simp at h
    rename_i p hp
    have hmem : p ∈ s.flights := List.mem_of_getElem? hp
    have hpos : ∀ q ∈ s.flights.eraseIdx j, q.n ≠ 0 := fun q hq => hi.pos q (mem_erase hq)
    have hdst : ∀ q ∈ s.flights.eraseIdx j, own k q = true → q.dst = k.hconv := fun q hq => hi.dst q (mem_erase hq)
    have hbr : ∀ x, amount (fun p => own k p && ofOut x p) (s.flights.eraseIdx j) ≤ (s.out x).bridged := fun x => by
      have := hi.bridged x
      rw [amount_erase _ hp] at this
      omega
    have ho := amount_erase (own k) hp
    obtain ⟨_, hout, _⟩ := hv.outNative p.o
    unfold giveBack at h
    split at h
    · rename_i hth
      split at h
      · rename_i hsrc
        simp only [bind_ok_iff, Except.ok.injEq] at h
        obtain ⟨st, hx, rfl⟩ := h
        simp only [exec, bind_ok_iff, csub_ok, Except.ok.injEq] at hx
        obtain ⟨r, ⟨hle, rfl⟩, rfl⟩ := hx
        have hown : own k p = true := by simp [own, hth, hsrc]
        rw [if_pos hown] at ho
        refine voucher_step (l := credit ((s.out p.o).bal (k.out p.o).old) (k.oconv p.o) p.n) hout rfl ?_
          ⟨fun x => ?_, fun x => ?_, hpos, hdst⟩
        · rw [credit_self]
          omega
        · have hc := hi.covered x
          rw [amount_erase _ hp] at hc
          simp only
          by_cases hxo : x = p.o
          · subst hxo
            simp only [ofOut, decide_true, if_true] at hc
            simp only [Function.update_self]
            rw [sum_credit]
            omega
          · rw [Function.update_of_ne hxo]
            omega
        · simp only
          by_cases hxo : x = p.o
          · subst hxo
            have := hi.bridged p.o
            rw [amount_erase _ hp] at this
            simp only [hown, ofOut, decide_true, Bool.and_self, if_true] at this
            simp only [Function.update_self, ofOut]
            omega
          · rw [Function.update_of_ne hxo]
            exact hbr x
      · rename_i hsrc
        simp only [Except.ok.injEq] at h
        subst h
        have hown : own k p = false := by simp [own, hsrc]
        rw [hown] at ho
        simp only [Bool.false_eq_true, if_false] at ho
        refine voucher_step (l := credit ((s.out p.o).bal (k.out p.o).old) p.src p.n) hout rfl ?_
          ⟨fun x => ?_, fun x => ?_, hpos, hdst⟩
        · rw [credit_apply]
          split <;> omega
        · have hc := hi.covered x
          rw [amount_erase _ hp] at hc
          simp only
          by_cases hxo : x = p.o
          · subst hxo
            simp only [ofOut, decide_true, if_true] at hc
            simp only [Function.update_self, setOld]
            rw [sum_credit]
            omega
          · rw [Function.update_of_ne hxo]
            omega
        · have := hbr x
          simp only
          by_cases hxo : x = p.o
          · subst hxo
            simp only [Function.update_self, setOld]
            exact this
          · rw [Function.update_of_ne hxo]
            exact this
    · rename_i hth
      simp only [bind_ok_iff, Except.ok.injEq] at h
      obtain ⟨h', hx, rfl⟩ := h
      obtain ⟨_, _, _, b4⟩ := send_old (j := k.hub.old) hx
      have b4 := b4 rfl
      have b6 := move_le b4
      have hown : own k p = false := by simp [own, hth]
      rw [hown] at ho
      simp only [Bool.false_eq_true, if_false] at ho
      refine hubMove_step hhub hx (hv.escC _).1 (by omega) ⟨fun x => ?_, hbr, hpos, hdst⟩
      have hc := hi.covered x
      rw [amount_erase _ hp] at hc
      have b5 := move_apply b4 (k.esc x)
      simp only
      by_cases hxo : x = p.o
      · subst hxo
        simp only [ofOut, decide_true, if_true] at hc
        rw [if_pos rfl] at b5
        omega
      · rw [if_neg fun e => hxo (hv.esc _ _ e)] at b5
        omega

omit [DecidableEq D] in
theorem Step.refl [Fintype O] {k : NetCfg O A D} {s : Net O A D} (hi : Inv k s) : Step k s s :=
  ⟨hi, le_refl _, le_refl _, rfl⟩

omit [DecidableEq D] in
theorem Step.trans [Fintype O] {k : NetCfg O A D} {s t u : Net O A D} (h1 : Step k s t) (h2 : Step k t u) : Step k s u :=
  ⟨h2.inv, h1.stay.trans h2.stay, h1.paid.trans h2.paid, h2.supply.trans h1.supply⟩

theorem commit_step [Fintype O] {ibc : D → Bool} {k : NetCfg O A D} (hv : Valid ibc k) {s : Net O A D} (hi : Inv k s)
    (op : NOp O A D) : Step k s (commit' s (nexec k s op)) := by
  cases h : nexec k s op with
  | error e => exact Step.refl hi
  | ok s' => exact nexec_step hv hi h

theorem nrun_step [Fintype O] {ibc : D → Bool} {k : NetCfg O A D} (hv : Valid ibc k) (ops : List (NOp O A D)) :
    ∀ {s : Net O A D}, Inv k s → Step k s (nrun k s ops) := by
  induction ops with
  | nil => intro s hi; exact Step.refl hi
  | cons op ops ih =>
    intro s hi
    have h1 := commit_step hv hi op
    exact h1.trans (ih h1.inv)

omit [Fintype A] in
theorem nrun_append [Fintype O] (k : NetCfg O A D) : ∀ (a b : List (NOp O A D)) (s : Net O A D),
    nrun k s (a ++ b) = nrun k (nrun k s a) b
  | [], _, _ => rfl
  | o :: a, b, s => nrun_append k a b (commit' s (nexec k s o))

omit [Fintype A] in
theorem send_succeeds {s : State A D} {i : Info A D} {src dst : A} {n : Nat} (hn : n ≠ 0) (h : n ≤ s.bal i src) :
    ∃ s', send s i src dst n = .ok s' := by
  obtain ⟨l, hl⟩ := move_succeeds (b := dst) h
  refine ⟨{ s with bal := Function.update s.bal i l }, ?_⟩
  unfold send
  simp only [bind_ok_iff, require_ok, exists_const]
  exact ⟨hn, l, hl, rfl⟩

/-- Any packet on its way can be received, and can be given back. -/
theorem packet_ok [Fintype O] {k : NetCfg O A D} {s : Net O A D} (hi : Inv k s) {j : Nat} (hj : j < s.flights.length) :
    (∃ s', nexec k s (.recv j) = .ok s') ∧ ∃ s', nexec k s (.fail j) = .ok s' := by
  have hp : s.flights[j]? = some s.flights[j] := List.getElem?_eq_getElem hj
  generalize s.flights[j] = p at hp
  have hmem : p ∈ s.flights := List.mem_of_getElem? hp
  have hn := hi.pos p hmem
  have hc := hi.covered p.o
  rw [amount_erase _ hp] at hc
  simp only [ofOut, decide_true, if_true] at hc
  have hle : p.n ≤ s.hub.bal k.hub.old (k.esc p.o) := by omega
  constructor
  · simp only [nexec, hp, arrive]
    split
    · obtain ⟨h', hh⟩ := send_succeeds (dst := p.dst) hn hle
      rw [hh]
      exact ⟨_, rfl⟩
    · exact ⟨_, rfl⟩
  · simp only [nexec, hp, giveBack]
    split
    · split
      · rename_i hth hsrc
        have hb := hi.bridged p.o
        rw [amount_erase _ hp] at hb
        have hown : own k p = true := by simp [own, hth, hsrc]
        simp only [hown, ofOut, decide_true, Bool.and_self, if_true] at hb
        have : csub (s.out p.o).bridged p.n = .ok ((s.out p.o).bridged - p.n) := (csub_ok _ _ _).2 ⟨by omega, rfl⟩
        simp only [exec, this, ok_bind]
        exact ⟨_, rfl⟩
      · exact ⟨_, rfl⟩
    · obtain ⟨h', hh⟩ := send_succeeds (dst := p.src) hn hle
      rw [hh]
      exact ⟨_, rfl⟩

omit [Fintype A] in
/-- Reception of the first packet. -/
theorem recv_zero [Fintype O] {k : NetCfg O A D} {s s' : Net O A D} {p : Packet O A} {l : List (Packet O A)}
    (hf : s.flights = p :: l) (h : nexec k s (.recv 0) = .ok s') :
    s'.flights = l ∧ (p.toHub = true → s'.out = s.out) := by
  simp only [nexec, hf, List.getElem?_cons_zero, List.eraseIdx_cons_zero] at h
  unfold arrive at h
  split at h
  · simp only [bind_ok_iff, Except.ok.injEq] at h
    obtain ⟨_, _, rfl⟩ := h
    exact ⟨rfl, fun _ => rfl⟩
  · rename_i hh
    simp only [Except.ok.injEq] at h
    subst h
    exact ⟨rfl, fun e => absurd e hh⟩

theorem deliver_all [Fintype O] {ibc : D → Bool} {k : NetCfg O A D} (hv : Valid ibc k) : ∀ (n : Nat) {s : Net O A D},
    Inv k s → s.flights.length = n →
      (nrun k s (List.replicate n (.recv 0))).flights = [] ∧
        ((∀ p ∈ s.flights, p.toHub = true) → (nrun k s (List.replicate n (.recv 0))).out = s.out)
  | 0, s, _, hn => ⟨List.length_eq_zero_iff.1 hn, fun _ => rfl⟩
  | n + 1, s, hi, hn => by
    obtain ⟨⟨s', hs⟩, _⟩ := packet_ok hi (j := 0) (by omega)
    obtain ⟨p, l, hf⟩ := List.exists_cons_of_length_eq_add_one hn
    obtain ⟨h1, h2⟩ := recv_zero hf hs
    have e : nrun k s (List.replicate (n + 1) (.recv 0)) = nrun k s' (List.replicate n (.recv 0)) := by
      rw [List.replicate_succ]
      show nrun k (commit' s (nexec k s (.recv 0))) _ = _
      rw [hs]
      rfl
    have hl : s'.flights.length = n := by
      rw [h1]
      rw [hf] at hn
      simpa using hn
    obtain ⟨h3, h4⟩ := deliver_all hv n (nexec_step hv hi hs).inv hl
    rw [e]
    refine ⟨h3, fun hall => ?_⟩
    rw [hf] at hall
    rw [h4 fun q hq => hall q (List.mem_cons_of_mem _ (h1 ▸ hq)), h2 (hall p List.mem_cons_self)]

omit [Fintype A] in
/-- `TransferForBurning` on one outpost, by anybody. -/
theorem clear_one [Fintype O] {ibc : D → Bool} {k : NetCfg O A D} (hv : Valid ibc k) {s : Net O A D} {o : O} {x : A}
    (hx : x ≠ k.oconv o ∧ x ≠ k.opair o) :
    let s' := commit' s (nexec k s (.out o x (.transferForBurning [] none)))
    (s'.out o).bal (k.out o).old (k.oconv o) = 0 ∧ (∀ y, y ≠ o → s'.out y = s.out y) ∧
      ((∀ p ∈ s.flights, p.toHub = true) → ∀ p ∈ s'.flights, p.toHub = true) := by
  obtain ⟨⟨d, hd⟩, _, hb⟩ := hv.outNative o
  by_cases hz : (s.out o).bal (k.out o).old (k.oconv o) = 0
  · cases h : nexec k s (.out o x (.transferForBurning [] none)) with
    | error e => exact ⟨hz, fun _ _ => rfl, fun h => h⟩
    | ok s' =>
      simp only [nexec, exec, bind_ok_iff, require_ok, exists_const, Except.ok.injEq] at h
      obtain ⟨_, _, st, ⟨s1, h1, h2⟩, rfl⟩ := h
      simp only [sendAll, Except.ok.injEq] at h1
      subst h1
      obtain ⟨_, hz', _⟩ := transferForBurning_ok h2
      exact absurd hz hz'
  · have ht : transferForBurning (k.out o) (k.oconv o) (s.out o) [] none = .ok { s.out o with
        bal := Function.update (s.out o).bal (k.out o).old (Function.update ((s.out o).bal (k.out o).old) (k.oconv o) 0)
        bridged := (s.out o).bridged + (s.out o).bal (k.out o).old (k.oconv o) } := by
      unfold transferForBurning nonpayable
      rw [hd] at hz ⊢
      simp [require, hz, hb]
    have he : nexec k s (.out o x (.transferForBurning [] none)) = .ok { s with
        out := Function.update s.out o { s.out o with
          bal := Function.update (s.out o).bal (k.out o).old
            (Function.update ((s.out o).bal (k.out o).old) (k.oconv o) 0)
          bridged := (s.out o).bridged + (s.out o).bal (k.out o).old (k.oconv o) }
        flights := s.flights ++ [⟨true, o, k.oconv o, k.hconv, (s.out o).bal (k.out o).old (k.oconv o)⟩] } := by
      simp only [nexec, bind_ok_iff, require_ok, exists_const, Except.ok.injEq]
      refine ⟨hx, rfl, _, ?_, rfl⟩
      simp only [exec, sendAll, ok_bind]
      exact ht
    rw [he]
    refine ⟨?_, fun y hy => ?_, fun hall p hp => ?_⟩
    · simp [commit']
    · simp [commit', Function.update_of_ne hy]
    · rcases List.mem_append.1 hp with hp | hp
      · exact hall p hp
      · simp only [List.mem_singleton] at hp
        subst hp
        rfl

omit [Fintype A] in
theorem clear_all [Fintype O] {ibc : D → Bool} {k : NetCfg O A D} (hv : Valid ibc k) {x : A}
    (hx : ∀ o, x ≠ k.oconv o ∧ x ≠ k.opair o) : ∀ (L : List O) {s : Net O A D},
    let s' := nrun k s (L.map fun o => .out o x (.transferForBurning [] none))
    (∀ o, o ∈ L ∨ (s.out o).bal (k.out o).old (k.oconv o) = 0 → (s'.out o).bal (k.out o).old (k.oconv o) = 0) ∧
      ((∀ p ∈ s.flights, p.toHub = true) → ∀ p ∈ s'.flights, p.toHub = true)
  | [], s => ⟨fun o h => h.resolve_left (by simp), fun h => h⟩
  | o :: L, s => by
    obtain ⟨h1, h2, h3⟩ := clear_one hv (s := s) (hx o)
    obtain ⟨h4, h5⟩ := clear_all hv hx L (s := commit' s (nexec k s (.out o x (.transferForBurning [] none))))
    refine ⟨fun y hy => h4 y ?_, fun h => h5 (h3 h)⟩
    by_cases hyo : y = o
    · subst hyo
      exact .inr h1
    · rcases hy with hy | hy
      · exact .inl ((List.mem_cons.1 hy).resolve_left hyo)
      · right
        rw [h2 y hyo]
        exact hy

/-! ## Theorems -/

/-- **C139.**  After any history of conversions, transfers, arrivals and failures on all chains, the vouchers of an
outpost and the packets to and from it are covered by the tokens in escrow on the hub. -/
theorem C139_escrow_covers_vouchers [Fintype O] (ibc : D → Bool) (k : NetCfg O A D) (hv : Valid ibc k) (s : Net O A D)
    (hs : Start k s) (ops : List (NOp O A D)) (o : O) :
    ∑ a, ((nrun k s ops).out o).bal (k.out o).old a + amount (ofOut o) (nrun k s ops).flights ≤
      (nrun k s ops).hub.bal k.hub.old (k.esc o) :=
  (nrun_step hv ops hs.inv).inv.covered o

/-- **C139.**  No packet is ever stuck: each can be received, and its refusal or time-out can be processed, whatever
happened before. -/
theorem C139_packets_never_stuck [Fintype O] (ibc : D → Bool) (k : NetCfg O A D) (hv : Valid ibc k) (s : Net O A D)
    (hs : Start k s) (ops : List (NOp O A D)) (j : Nat) (hj : j < (nrun k s ops).flights.length) :
    (∃ s', nexec k (nrun k s ops) (.recv j) = .ok s') ∧ ∃ s', nexec k (nrun k s ops) (.fail j) = .ok s' :=
  packet_ok (nrun_step hv ops hs.inv).inv hj

/-- **C139.**  Old ASTRO that the converters took never comes back into circulation, on any chain, and the new ASTRO they
paid out on all chains together is at most the old ASTRO retired. -/
theorem C139_payouts_backed_by_retired [Fintype O] (ibc : D → Bool) (k : NetCfg O A D) (hv : Valid ibc k) (s : Net O A D)
    (hs : Start k s) (ops ops' : List (NOp O A D)) :
    retired k (nrun k s ops) ≤ retired k (nrun k s (ops ++ ops')) ∧
      newHeld k s - newHeld k (nrun k s ops) ≤ retired k (nrun k s ops) - retired k s := by
  have h1 := nrun_step hv ops hs.inv
  have h2 := nrun_step hv ops' h1.inv
  rw [nrun_append]
  have := h1.paid
  exact ⟨h2.stay, by omega⟩

/-- **C139.**  The supply of the old token on the hub goes down exactly by what is burnt. -/
theorem C139_old_supply [Fintype O] (ibc : D → Bool) (k : NetCfg O A D) (hv : Valid ibc k) (s : Net O A D)
    (hs : Start k s) (ops : List (NOp O A D)) :
    ∑ a, (nrun k s ops).hub.bal k.hub.old a + (nrun k s ops).hub.burned =
      ∑ a, s.hub.bal k.hub.old a + s.hub.burned :=
  (nrun_step hv ops hs.inv).supply

/-- **C139.**  At any point anybody can have all of the retired ASTRO burnt: they ask each converter of an outpost to send
its vouchers, and the converter of the hub to burn; only the arrival of packets is needed besides. -/
theorem C139_everything_can_be_burnt [Fintype O] (ibc : D → Bool) (k : NetCfg O A D) (hv : Valid ibc k) (s : Net O A D)
    (hs : Start k s) (ops : List (NOp O A D)) (x : A) (hx : x ≠ k.hconv ∧ x ≠ k.hpair ∧ ∀ o, x ≠ k.esc o)
    (hxo : ∀ o, x ≠ k.oconv o ∧ x ≠ k.opair o) :
    ∃ more : List (NOp O A D),
      (∀ op ∈ more, (∃ j, op = .recv j) ∨ (∃ o, op = .out o x (.transferForBurning [] none)) ∨ op = .hub x (.burn [])) ∧
      retired k (nrun k s ops) ≤ (nrun k s (ops ++ more)).hub.burned ∧
      (nrun k s (ops ++ more)).flights = [] ∧
      retired k (nrun k s (ops ++ more)) = (nrun k s (ops ++ more)).hub.burned := by
  have h0 := nrun_step hv ops hs.inv
  generalize hs0 : nrun k s ops = s0 at h0
  obtain ⟨d1, _⟩ := deliver_all hv s0.flights.length h0.inv rfl
  have h1 := nrun_step hv (List.replicate s0.flights.length (.recv 0)) h0.inv
  generalize hs1 : nrun k s0 (List.replicate s0.flights.length (.recv 0)) = s1 at d1 h1
  obtain ⟨c1, c2⟩ := clear_all hv hxo (Finset.univ : Finset O).toList (s := s1)
  have h2 := nrun_step hv ((Finset.univ : Finset O).toList.map fun o => .out o x (.transferForBurning [] none)) h1.inv
  generalize hs2 : nrun k s1 ((Finset.univ : Finset O).toList.map fun o => .out o x (.transferForBurning [] none)) = s2
    at c1 c2 h2
  obtain ⟨e1, e2⟩ := deliver_all hv s2.flights.length h2.inv rfl
  have e2 := e2 (c2 fun p hp => by rw [d1] at hp; simp at hp)
  have h3 := nrun_step hv (List.replicate s2.flights.length (.recv 0)) h2.inv
  generalize hs3 : nrun k s2 (List.replicate s2.flights.length (.recv 0)) = s3 at e1 e2 h3
  have h4 := nrun_step hv [.hub x (.burn [])] h3.inv
  have hb : (nrun k s3 [.hub x (.burn [])]).hub.bal k.hub.old k.hconv = 0 ∧
      (nrun k s3 [.hub x (.burn [])]).out = s3.out ∧ (nrun k s3 [.hub x (.burn [])]).flights = s3.flights := by
    obtain ⟨⟨t, ht⟩, _⟩ := hv.hubToken
    show (commit' s3 (nexec k s3 (.hub x (.burn [])))).hub.bal k.hub.old k.hconv = 0 ∧
      (commit' s3 (nexec k s3 (.hub x (.burn [])))).out = s3.out ∧
      (commit' s3 (nexec k s3 (.hub x (.burn [])))).flights = s3.flights
    by_cases hz : s3.hub.bal k.hub.old k.hconv = 0
    · cases h : nexec k s3 (.hub x (.burn [])) with
      | error e => exact ⟨hz, rfl, rfl⟩
      | ok s' =>
        simp only [nexec, exec, bind_ok_iff, require_ok, exists_const, Except.ok.injEq] at h
        obtain ⟨_, _, st, ⟨s1, h1, h2⟩, rfl⟩ := h
        simp only [sendAll, Except.ok.injEq] at h1
        subst h1
        obtain ⟨_, hz', _⟩ := burn_ok h2
        exact absurd hz hz'
    · have hbu : burn k.hub k.hconv s3.hub [] = .ok { s3.hub with
          bal := Function.update s3.hub.bal k.hub.old (Function.update (s3.hub.bal k.hub.old) k.hconv 0)
          burned := s3.hub.burned + s3.hub.bal k.hub.old k.hconv } := by
        unfold burn nonpayable
        rw [ht] at hz ⊢
        simp [require, hz]
      have he : nexec k s3 (.hub x (.burn [])) = .ok { s3 with hub := { s3.hub with
          bal := Function.update s3.hub.bal k.hub.old (Function.update (s3.hub.bal k.hub.old) k.hconv 0)
          burned := s3.hub.burned + s3.hub.bal k.hub.old k.hconv } } := by
        simp only [nexec, bind_ok_iff, require_ok, exists_const, Except.ok.injEq]
        refine ⟨hx, rfl, _, ?_, rfl⟩
        simp only [exec, sendAll, ok_bind]
        exact hbu
      rw [he]
      exact ⟨by simp [commit'], rfl, rfl⟩
  generalize hs4 : nrun k s3 [.hub x (.burn [])] = s4 at hb h4
  obtain ⟨b1, b2, b3⟩ := hb
  have hfin : retired k s4 = s4.hub.burned := by
    unfold retired
    rw [b1, b2, b3, e1, e2, Finset.sum_eq_zero fun o _ => c1 o (.inl (Finset.mem_toList.2 (Finset.mem_univ o)))]
    simp [amount]
  refine ⟨List.replicate s0.flights.length (.recv 0) ++
    (((Finset.univ : Finset O).toList.map fun o => .out o x (.transferForBurning [] none)) ++
      (List.replicate s2.flights.length (.recv 0) ++ [.hub x (.burn [])])), fun op hop => ?_, ?_⟩
  · simp only [List.mem_append, List.mem_replicate, List.mem_map, List.mem_singleton] at hop
    rcases hop with ⟨_, rfl⟩ | ⟨o, _, rfl⟩ | ⟨_, rfl⟩ | rfl
    · exact .inl ⟨0, rfl⟩
    · exact .inr (.inl ⟨o, rfl⟩)
    · exact .inl ⟨0, rfl⟩
    · exact .inr (.inr rfl)
  · rw [nrun_append, nrun_append, nrun_append, nrun_append, hs0, hs1, hs2, hs3, hs4]
    have := h1.stay
    have := h2.stay
    have := h3.stay
    have := h4.stay
    exact ⟨by omega, by rw [b3, e1], hfin⟩

/-! Two outposts: conversions on the hub and on both outposts, a packet that fails, one that arrives, a user's transfer
in each direction. -/

/-- hub converter 0, its pair 1; outpost converter 2, its pair 3; escrows 4, 5; users from 6 on -/
def demoNet : NetCfg (Fin 2) (Fin 10) Nat :=
  { hub := ⟨.token 9, 1, false⟩, hconv := 0, hpair := 1, out := fun _ => ⟨.native 0, 1, true⟩, oconv := fun _ => 2
    opair := fun _ => 3, esc := fun o => if o = 0 then 4 else 5 }

/-- 1000 new ASTRO with each converter, 300 and 200 vouchers on the outposts -/
def demoNet0 : Net (Fin 2) (Fin 10) Nat :=
  { hub := { bal := fun i a => if i = .native 1 ∧ a = 0 then 1000 else if i = .token 9 then
        (if a = 4 then 300 else if a = 5 then 200 else if a = 6 then 100 else 0) else 0
             burned := 0, bridged := 0 }
    out := fun o => { bal := fun i a => if i = .native 1 ∧ a = 2 then 1000 else if i = .native 0 ∧ a = 7 then
        (if o = 0 then 300 else 200) else 0
                      burned := 0, bridged := 0 }
    flights := [] }

theorem demoNet_valid : Valid (fun d => decide (d = 0)) demoNet := by
  refine ⟨⟨9, 1, rfl⟩, fun o => ⟨0, 1, rfl⟩, ?_, ?_⟩ <;> decide

theorem demoNet_start : Start demoNet demoNet0 := ⟨rfl, by decide +kernel⟩

/-- A history of the two outposts. -/
def demoOps : List (NOp (Fin 2) (Fin 10) Nat) :=
  [.out 0 7 (.convert [(0, 120)] none), .out 1 7 (.convert [(0, 50)] none), .hub 6 (.cw20Send 9 40 none),
   .fromHub 0 6 8 20, .out 0 8 (.transferForBurning [] none), .out 1 8 (.transferForBurning [] (some 200)),
   .fail 1, .recv 0, .recv 0, .toHub 1 7 6 30]

example : let s := nrun demoNet demoNet0 demoOps
    (retired demoNet s, newHeld demoNet s, s.flights.length, s.hub.bal (.token 9) 4, (s.out 0).bal (.native 0) 8) =
      (210, 2790, 1, 320, 20) := by decide +kernel

example : ∃ more, 210 ≤ (nrun demoNet demoNet0 (demoOps ++ more)).hub.burned := by
  obtain ⟨more, _, h, _⟩ := C139_everything_can_be_burnt _ demoNet demoNet_valid demoNet0 demoNet_start demoOps 9
    (by decide) (by decide)
  exact ⟨more, le_trans (by decide +kernel) h⟩

end Verif.Converter
