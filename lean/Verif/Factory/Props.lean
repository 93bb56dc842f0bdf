import Verif.Factory.Model
import Verif.Asset.Props
import Mathlib.Data.List.Infix

/-!
# C35–C38: the factory
-/

namespace Verif.Factory

open Verif.Asset

variable {A : Type} [DecidableEq A]

/-! ## Lemmas -/

theorem pairKey_perm {l l' : List Info} (h : l.Perm l') : pairKey l = pairKey l' := by
  unfold pairKey
  congr 1
  exact List.Perm.eq_of_pairwise' (List.pairwise_insertionSort _ _) (List.pairwise_insertionSort _ _)
    ((List.perm_insertionSort _ _).trans ((h.map _).trans (List.perm_insertionSort _ _).symm))

theorem checkAssetInfos_ok {okAddr : Str → Bool} {l : List Info} {u : Unit} :
    checkAssetInfos okAddr l = .ok u ↔ l.Nodup ∧ ∀ a ∈ l, a.check okAddr = .ok () := by
  simp only [checkAssetInfos, bind_ok_iff, require_ok, exists_const, forAll_ok]

theorem create_ok {okAddr : Str → Bool} {s s' : State A} {sender : A} {t : PairType} {infos : List Info}
    {inst : Option A} : create okAddr s sender t infos inst = .ok s' ↔
    (infos.Nodup ∧ ∀ a ∈ infos, a.check okAddr = .ok ()) ∧ kvGet (pairKey infos) s.pairs = none ∧
    (∃ c, kvGet t.name s.pairConfigs = some c ∧ ¬(c.permissioned = true ∧ sender ≠ s.own.owner) ∧ c.isDisabled = false) ∧
    ∃ p, inst = some p ∧ s' = { s with pairs := kvInsert (pairKey infos) p s.pairs } := by
  simp only [create, createPair, reply, bind_ok_iff, require_ok, exists_const, orErr_ok, Except.ok.injEq,
    checkAssetInfos_ok]
  constructor
  · rintro ⟨k, ⟨h1, h2, c, h3, h4, h5, rfl⟩, p, h6, _, rfl⟩
    exact ⟨h1, h2, ⟨c, h3, h4, h5⟩, p, h6, rfl⟩
  · rintro ⟨h1, h2, ⟨c, h3, h4, h5⟩, p, h6, rfl⟩
    exact ⟨_, ⟨h1, h2, c, h3, h4, h5, rfl⟩, p, h6, h2, rfl⟩

theorem deregister_ok {okAddr : Str → Bool} {s : State A} {sender : A} {infos : List Info} {x : State A × A} :
    deregister okAddr s sender infos = .ok x ↔
    (infos.Nodup ∧ ∀ a ∈ infos, a.check okAddr = .ok ()) ∧ sender = s.own.owner ∧
    kvGet (pairKey infos) s.pairs = some x.2 ∧ x.1 = { s with pairs := kvRemove (pairKey infos) s.pairs } := by
  simp only [deregister, bind_ok_iff, require_ok, exists_const, orErr_ok, Except.ok.injEq, checkAssetInfos_ok]
  constructor
  · rintro ⟨h1, h2, p, h3, rfl⟩; exact ⟨h1, h2, h3, rfl⟩
  · rintro ⟨h1, h2, h3, h4⟩
    refine ⟨h1, h2, x.2, h3, ?_⟩
    rw [← h4]

/-! ## C35 -/

/-- C35: lookups do not depend on the order of the assets. -/
theorem C35_lookup_any_order (s : State A) {l l' : List Info} (h : l.Perm l') : queryPair s l = queryPair s l' := by
  unfold queryPair; rw [pairKey_perm h]

/-- C35: creating a pair succeeds only if no pair with these assets, in any order, is registered; afterwards it
is found with its assets in any order, and every pair with another registry key is as before. -/
theorem C35_create (okAddr : Str → Bool) (s s' : State A) (sender : A) (t : PairType) (infos : List Info)
    (inst : Option A) (h : create okAddr s sender t infos inst = .ok s') :
    (∀ l, l.Perm infos → queryPair s l = none) ∧
    (∃ p, inst = some p ∧ ∀ l, l.Perm infos → queryPair s' l = some p) ∧
    ∀ l, pairKey l ≠ pairKey infos → queryPair s' l = queryPair s l := by
  obtain ⟨_, h2, _, p, h6, rfl⟩ := create_ok.1 h
  refine ⟨?_, ⟨p, h6, ?_⟩, ?_⟩
  · intro l hl; unfold queryPair; rw [pairKey_perm hl]; exact h2
  · intro l hl; unfold queryPair; rw [pairKey_perm hl, kvGet_insert, if_pos rfl]
  · intro l hl; unfold queryPair; rw [kvGet_insert, if_neg hl]

/-- C35: an attempt to create a pair whose assets, in some order, are registered fails. -/
theorem C35_duplicate_fails (okAddr : Str → Bool) (s : State A) (sender : A) (t : PairType) (infos l : List Info)
    (inst : Option A) (hp : l.Perm infos) {p : A} (h : queryPair s l = some p) :
    ∃ e, create okAddr s sender t infos inst = .error e := by
  cases hc : create okAddr s sender t infos inst with
  | error e => exact ⟨e, rfl⟩
  | ok s' =>
    have := (C35_create okAddr s s' sender t infos inst hc).1 l hp
    rw [h] at this; simp at this

/-- C35: deregistering, by the owner only, makes the pair unavailable in every order and leaves every pair with
another registry key as before. -/
theorem C35_deregister (okAddr : Str → Bool) (s s' : State A) (sender p : A) (infos : List Info)
    (h : deregister okAddr s sender infos = .ok (s', p)) :
    sender = s.own.owner ∧ (∀ l, l.Perm infos → queryPair s l = some p ∧ queryPair s' l = none) ∧
    ∀ l, pairKey l ≠ pairKey infos → queryPair s' l = queryPair s l := by
  obtain ⟨_, h2, h3, h4⟩ := deregister_ok.1 h
  simp only at h3 h4
  subst h4
  refine ⟨h2, ?_, ?_⟩
  · intro l hl
    unfold queryPair
    rw [pairKey_perm hl]
    exact ⟨h3, by rw [kvGet_remove, if_pos rfl]⟩
  · intro l hl; unfold queryPair; rw [kvGet_remove, if_neg hl]

/-- Does the call deregister this key? -/
def Deregisters (k : List Nat) : Op A → Prop
  | .deregister _ infos => pairKey infos = k
  | _ => False

/-- C35: a registered pair stays available at the same address through every history that does not deregister it. -/
theorem C35_stays_registered (okAddr : Str → Bool) (infos : List Info) (p : A) (os : List (Op A)) :
    ∀ s : State A, queryPair s infos = some p → (∀ o ∈ os, ¬Deregisters (pairKey infos) o) →
    queryPair (run okAddr s os) infos = some p := by
  induction os with
  | nil => intro s h _; exact h
  | cons o os ih =>
    intro s h ho
    refine ih _ ?_ (fun o h => ho o (by simp [h]))
    refine commit'_inv (fun s : State A => queryPair s infos = some p) h ?_
    intro s' hs
    cases o with
    | own t =>
      simp only [exec, bind_ok_iff, Except.ok.injEq] at hs
      obtain ⟨_, _, rfl⟩ := hs; exact h
    | updateConfig sender new =>
      simp only [exec, updateConfig, bind_ok_iff, require_ok, exists_const, Except.ok.injEq] at hs
      obtain ⟨_, rfl⟩ := hs; exact h
    | updateTracker sender code tf =>
      simp only [exec, updateTracker, bind_ok_iff, require_ok, exists_const] at hs
      obtain ⟨_, hs⟩ := hs
      split at hs
      · simp only [Except.ok.injEq] at hs; subst hs; exact h
      · simp only [bind_ok_iff, Except.ok.injEq] at hs
        obtain ⟨_, _, rfl⟩ := hs; exact h
    | updatePairConfig sender c =>
      simp only [exec, updatePairConfig, bind_ok_iff, require_ok, exists_const, Except.ok.injEq] at hs
      obtain ⟨_, _, rfl⟩ := hs; exact h
    | create sender t l inst =>
      obtain ⟨_, h2, _, q, h6, rfl⟩ := create_ok.1 hs
      unfold queryPair at h ⊢
      rw [kvGet_insert]
      split_ifs with he
      · rw [he, h2] at h; simp at h
      · exact h
    | deregister sender l =>
      simp only [exec, bind_ok_iff, Except.ok.injEq] at hs
      obtain ⟨x, hx, rfl⟩ := hs
      obtain ⟨_, _, _, h4⟩ := deregister_ok.1 hx
      rw [h4]
      unfold queryPair at h ⊢
      rw [kvGet_remove, if_neg]
      · exact h
      · intro he
        exact ho (.deregister sender l) (by simp) he.symm

/-! ## C36 -/

/-- Concatenation of words none of which is a prefix of another is injective. -/
theorem flatten_inj : ∀ {l l' : List (List Nat)}, (∀ a ∈ l, a ≠ []) → (∀ a ∈ l', a ≠ []) →
    (∀ a ∈ l, ∀ b ∈ l', a <+: b ∨ b <+: a → a = b) → l.flatten = l'.flatten → l = l'
  | [], [], _, _, _, _ => rfl
  | [], b :: l', _, h', _, h => by
    simp only [List.flatten_nil, List.flatten_cons] at h
    have := h' b (by simp)
    exact absurd (List.append_eq_nil_iff.1 h.symm).1 this
  | a :: l, [], h0, _, _, h => by
    simp only [List.flatten_nil, List.flatten_cons] at h
    have := h0 a (by simp)
    exact absurd (List.append_eq_nil_iff.1 h).1 this
  | a :: l, b :: l', h0, h0', hp, h => by
    simp only [List.flatten_cons] at h
    have h1 : a <+: b ∨ b <+: a :=
      List.prefix_or_prefix_of_prefix (l₃ := a ++ l.flatten) (List.prefix_append _ _)
        (by rw [h]; exact List.prefix_append _ _)
    have h2 := hp a (by simp) b (by simp) h1
    subst h2
    have h3 := List.append_cancel_left h
    rw [flatten_inj (fun x hx => h0 x (by simp [hx])) (fun x hx => h0' x (by simp [hx]))
      (fun x hx y hy => hp x (by simp [hx]) y (by simp [hy])) h3]

/-- Identifiers that cannot be confused: no identifier's bytes are a prefix of another asset's bytes. -/
def Distinguishable (l l' : List Info) : Prop :=
  ∀ a ∈ l, ∀ b ∈ l', (a.bytes <+: b.bytes ∨ b.bytes <+: a.bytes) → a = b

/-- C36, partial: two lists of assets share a registry slot only if they are permutations of each other,
provided no identifier in one is a prefix of a different identifier in the other.
Missing: identifiers in the prefix relation (`C36_collision_violated`). -/
theorem C36_no_confusion_partial (l l' : List Info) (h0 : ∀ a ∈ l, a.bytes ≠ []) (h0' : ∀ a ∈ l', a.bytes ≠ [])
    (hd : Distinguishable l l') : pairKey l = pairKey l' ↔ l.Perm l' := by
  refine ⟨fun h => ?_, pairKey_perm⟩
  unfold pairKey at h
  have hm : ∀ {l : List Info} {x : List Nat}, x ∈ (l.map Info.bytes).insertionSort (· ≤ ·) →
      ∃ a ∈ l, a.bytes = x := by
    intro l x hx
    have := (List.perm_insertionSort (· ≤ ·) (l.map Info.bytes)).subset hx
    simpa using this
  have h1 : (l.map Info.bytes).insertionSort (· ≤ ·) = (l'.map Info.bytes).insertionSort (· ≤ ·) := by
    refine flatten_inj ?_ ?_ ?_ h
    · intro x hx; obtain ⟨a, ha, rfl⟩ := hm hx; exact h0 a ha
    · intro x hx; obtain ⟨a, ha, rfl⟩ := hm hx; exact h0' a ha
    · intro x hx y hy hxy
      obtain ⟨a, ha, rfl⟩ := hm hx
      obtain ⟨b, hb, rfl⟩ := hm hy
      rw [hd a ha b hb hxy]
  have h2 : (l.map Info.bytes).Perm (l'.map Info.bytes) :=
    (List.perm_insertionSort (· ≤ ·) _).symm.trans (h1 ▸ List.perm_insertionSort (· ≤ ·) _)
  have hinj : ∀ a ∈ l, ∀ b ∈ l', a.bytes = b.bytes → a = b := fun a ha b hb he =>
    hd a ha b hb (Or.inl (he ▸ List.prefix_refl _))
  clear hm h1 h h0 h0' hd
  induction l generalizing l' with
  | nil =>
    have := h2.length_eq
    simp only [List.map_nil, List.length_nil, List.length_map] at this
    rw [List.length_eq_zero_iff.1 this.symm]
  | cons a l ih =>
    have ha : a.bytes ∈ l'.map Info.bytes := h2.subset (by simp)
    obtain ⟨b, hb, hab⟩ := List.mem_map.1 ha
    have := hinj a (by simp) b hb hab.symm
    subst this
    obtain ⟨l1, l2, rfl⟩ := List.append_of_mem hb
    have h3 : (l.map Info.bytes).Perm ((l1 ++ l2).map Info.bytes) := by
      have h4 : ((l1 ++ a :: l2).map Info.bytes).Perm (a.bytes :: (l1 ++ l2).map Info.bytes) := by
        have := (List.perm_middle (a := a) (l₁ := l1) (l₂ := l2)).map Info.bytes
        simpa using this
      exact (List.perm_cons _).1 (h2.trans h4)
    have h5 := ih (l1 ++ l2) h3 (fun x hx y hy => hinj x (by simp [hx]) y (by
      rcases List.mem_append.1 hy with h | h <;> simp [h]))
    exact (h5.cons a).trans List.perm_middle.symm

/-- C36, partial: with such identifiers a pool that is registered is never returned for, and never blocks,
different assets: after creating one pair, all different sets of assets are looked up as before. -/
theorem C36_create_isolated_partial (okAddr : Str → Bool) (s s' : State A) (sender : A) (t : PairType)
    (infos l : List Info) (inst : Option A) (h : create okAddr s sender t infos inst = .ok s')
    (h0 : ∀ a ∈ l, a.bytes ≠ []) (h0' : ∀ a ∈ infos, a.bytes ≠ []) (hd : Distinguishable l infos)
    (hne : ¬l.Perm infos) : queryPair s' l = queryPair s l :=
  (C35_create okAddr s s' sender t infos inst h).2.2 l
    (fun he => hne ((C36_no_confusion_partial l infos h0 h0' hd).1 he))

section Witness

/-- Two different pairs of valid denoms. -/
def wOne : List Info := [.native "abc".toList, .native "defg".toList]
/-- See `wOne`. -/
def wOther : List Info := [.native "abcd".toList, .native "efg".toList]
/-- A factory with the XYK type enabled, owned by `0`. -/
def wState : State Nat :=
  ⟨⟨0, none⟩, ⟨1, none, none, 2, 5, none⟩,
    [(PairType.xyk.name, ⟨7, .xyk, 30, 3333, false, false, false⟩)], []⟩

/-- C36 is violated: after creating the pair `abc`–`defg`, the lookup of `abcd`–`efg` returns it and the pair
`abcd`–`efg` cannot be created. -/
theorem C36_collision_violated :
    ¬wOne.Perm wOther ∧
    okAnd (create (fun _ => true) wState 3 .xyk wOne (some 77)) (fun s =>
      decide (queryPair s wOther = some 77) && fails (create (fun _ => true) s 3 .xyk wOther (some 78))) = true := by
  refine ⟨by decide, by decide +kernel⟩

/-- C36 is violated also between a token and a native denom of the same name. -/
theorem C36_token_native_violated :
    pairKey [.native "abc".toList, .token "def".toList] = pairKey [.native "abc".toList, .native "def".toList] := by
  decide +kernel

example : Distinguishable [.native "uluna".toList, .native "uusd".toList] [.native "uusd".toList, .native "ukrw".toList] := by
  unfold Distinguishable; decide +kernel

end Witness

/-! ## C37 -/

/-- Every byte of every stored key is above `1`. -/
def Printable (s : State A) : Prop := ∀ x ∈ s.pairs, ∀ b ∈ x.1, 1 < b

/-- Adding the byte `1` to a start key skips no key: stored keys continue with larger bytes. -/
theorem after_one {l : List (List Nat × A)} {k : List Nat} (hp : ∀ x ∈ l, ∀ b ∈ x.1, 1 < b) :
    kvAfter (k ++ [1]) l = kvAfter k l := by
  unfold kvAfter
  apply List.filter_congr
  intro x hx
  have hb := hp x hx
  have : k ++ [1] < x.1 ↔ k < x.1 := by
    generalize x.1 = y at hb
    clear hx
    induction k generalizing y with
    | nil =>
      cases y with
      | nil => simp
      | cons c y =>
        have := hb c (by simp)
        simp only [List.nil_append, List.cons_lt_cons_iff]
        constructor
        · intro _; exact List.nil_lt_cons ..
        · intro _; left; exact this
    | cons a k ih =>
      cases y with
      | nil => simp
      | cons c y =>
        simp only [List.cons_append, List.cons_lt_cons_iff]
        rw [ih y (fun b h => hb b (by simp [h]))]
  rw [decide_eq_decide]; exact this

/-- Walking the list: each page starts after the last pair of the previous one (`assetsOf` is what the
pair's information says about its assets); the walk stops at an empty page. -/
def walk (s : State A) (assetsOf : List Nat × A → List Info) (limit : Option Nat) :
    Nat → Option (List Info) → List (List Nat × A)
  | 0, _ => []
  | n + 1, start =>
    let page := readPairs s start limit
    match page.getLast? with
    | none => []
    | some e => page ++ walk s assetsOf limit n (some (assetsOf e))

/-- C37: walking page by page with any page size visits the pairs in key order, each exactly once: `n` pages
are exactly the first `n · size` pairs, where the size is 10 if not given and at most 30. -/
theorem C37_walk (s : State A) (hs : KvSorted s.pairs) (hp : Printable s) (assetsOf : List Nat × A → List Info)
    (ha : ∀ e ∈ s.pairs, pairKey (assetsOf e) = e.1) (limit : Option Nat) (n : Nat) :
    walk s assetsOf limit n none = s.pairs.take (n * min (limit.getD 10) 30) := by
  generalize hm : min (limit.getD 10) 30 = m
  have hm : min (limit.getD DEFAULT_LIMIT) MAX_LIMIT = m := hm
  have gen : ∀ (n : Nat) (start : Option (List Info)) (pre post : List (List Nat × A)), s.pairs = pre ++ post →
      readPairs s start limit = post.take m → walk s assetsOf limit n start = post.take (n * m) := by
    intro n
    induction n with
    | zero => intro _ _ _ _ _; simp [walk]
    | succ n ih =>
      intro start pre post hsp hr
      unfold walk
      simp only [hr]
      cases hl : (post.take m).getLast? with
      | none =>
        rw [List.getLast?_eq_none_iff] at hl
        rcases List.take_eq_nil_iff.1 hl with h | h
        · subst h; simp
        · subst h; simp
      | some e =>
        simp only
        obtain ⟨zs, hz⟩ := List.getLast?_eq_some_iff.1 hl
        have hpost : post = zs ++ e :: post.drop m := by
          conv => lhs; rw [← List.take_append_drop m post, hz]
          simp
        have hsp' : s.pairs = (pre ++ zs) ++ e :: post.drop m := by
          rw [hsp]; conv => lhs; rw [hpost]
          simp
        have hmem : e ∈ s.pairs := by rw [hsp']; simp
        rw [ih (some (assetsOf e)) (pre ++ zs ++ [e]) (post.drop m) (by rw [hsp']; simp)]
        · rw [Nat.succ_mul, Nat.add_comm (n * m) m, List.take_add]
        · unfold readPairs
          simp only [hm, rangeStart, ha e hmem, after_one hp]
          rw [hsp', kvAfter_split (by rw [← hsp']; exact hs)]
  exact gen n none [] s.pairs rfl (by unfold readPairs; simp only [hm])

/-- C37: with at least one pair per page, as many pages as there are pairs show everything. -/
theorem C37_walk_complete (s : State A) (hs : KvSorted s.pairs) (hp : Printable s)
    (assetsOf : List Nat × A → List Info) (ha : ∀ e ∈ s.pairs, pairKey (assetsOf e) = e.1) (limit : Option Nat)
    (hl : limit ≠ some 0) (n : Nat) (hn : s.pairs.length ≤ n) :
    walk s assetsOf limit n none = s.pairs ∧ (s.pairs.map Prod.fst).Nodup := by
  rw [C37_walk s hs hp assetsOf ha]
  refine ⟨?_, ?_⟩
  · apply List.take_of_length_le
    have : 1 ≤ min (limit.getD 10) 30 := by
      rw [Nat.le_min]
      refine ⟨?_, by decide⟩
      cases limit with
      | none => decide
      | some k => simp only [ne_eq, Option.some.injEq] at hl; simp only [Option.getD_some]; omega
    calc s.pairs.length ≤ n := hn
      _ = n * 1 := by omega
      _ ≤ _ := Nat.mul_le_mul_left _ this
  · unfold KvSorted at hs
    rw [List.Nodup, List.pairwise_map]
    exact hs.imp (fun h => ne_of_lt h)

/-! Every reachable registry meets these hypotheses. -/

/-- Valid addresses consist of printable ASCII characters (bech32). -/
def AsciiAddrs (okAddr : Str → Bool) : Prop := ∀ s, okAddr s = true → ∀ c ∈ s, 1 < c.toNat ∧ c.toNat ≤ 127

/-- Registry invariant: sorted, printable keys. -/
def RegInv (s : State A) : Prop := KvSorted s.pairs ∧ Printable s

theorem bytes_printable {okAddr : Str → Bool} (hA : AsciiAddrs okAddr) {a : Info} (h : a.check okAddr = .ok ()) :
    ∀ b ∈ a.bytes, 1 < b := by
  cases a with
  | token x =>
    simp only [Info.check, require_ok] at h
    have := hA x h
    intro b hb
    simp only [Info.bytes] at hb
    rw [utf8_ascii (fun c hc => (this c hc).2)] at hb
    obtain ⟨c, hc, rfl⟩ := List.mem_map.1 hb
    exact (this c hc).1
  | native d =>
    obtain ⟨c, rest, rfl, h1, h2, _⟩ := (C68_denom_grammar d).1 h
    have : ∀ x ∈ c :: rest, 45 ≤ x.toNat ∧ x.toNat ≤ 122 := by
      intro x hx
      rcases List.mem_cons.1 hx with rfl | hx
      · exact tail_ascii (Or.inl h1)
      · exact tail_ascii (h2 x hx)
    intro b hb
    simp only [Info.bytes] at hb
    rw [utf8_ascii (fun x hx => by have := this x hx; omega)] at hb
    obtain ⟨x, hx, rfl⟩ := List.mem_map.1 hb
    have := this x hx
    omega

theorem exec_regInv {okAddr : Str → Bool} (hA : AsciiAddrs okAddr) {s s' : State A} (hI : RegInv s) (o : Op A)
    (hs : exec okAddr s o = .ok s') : RegInv s' := by
  cases o with
  | own t =>
    simp only [exec, bind_ok_iff, Except.ok.injEq] at hs
    obtain ⟨_, _, rfl⟩ := hs; exact hI
  | updateConfig sender new =>
    simp only [exec, updateConfig, bind_ok_iff, require_ok, exists_const, Except.ok.injEq] at hs
    obtain ⟨_, rfl⟩ := hs; exact hI
  | updateTracker sender code tf =>
    simp only [exec, updateTracker, bind_ok_iff, require_ok, exists_const] at hs
    obtain ⟨_, hs⟩ := hs
    split at hs
    · simp only [Except.ok.injEq] at hs; subst hs; exact hI
    · simp only [bind_ok_iff, Except.ok.injEq] at hs
      obtain ⟨_, _, rfl⟩ := hs; exact hI
  | updatePairConfig sender c =>
    simp only [exec, updatePairConfig, bind_ok_iff, require_ok, exists_const, Except.ok.injEq] at hs
    obtain ⟨_, _, rfl⟩ := hs; exact hI
  | create sender t l inst =>
    obtain ⟨h1, h2, _, q, h6, rfl⟩ := create_ok.1 hs
    refine ⟨kvSorted_insert hI.1, ?_⟩
    intro x hx b hb
    rcases mem_kvInsert hx with rfl | hx
    · simp only [pairKey, List.mem_flatten] at hb
      obtain ⟨w, hw, hb⟩ := hb
      have hw := (List.perm_insertionSort (· ≤ ·) (l.map Info.bytes)).subset hw
      obtain ⟨a, ha, rfl⟩ := List.mem_map.1 hw
      exact bytes_printable hA (h1.2 a ha) b hb
    · exact hI.2 x hx b hb
  | deregister sender l =>
    simp only [exec, bind_ok_iff, Except.ok.injEq] at hs
    obtain ⟨x, hx, rfl⟩ := hs
    obtain ⟨_, _, _, h4⟩ := deregister_ok.1 hx
    rw [h4]
    exact ⟨kvSorted_remove hI.1, fun x hx => hI.2 x (List.mem_of_mem_filter hx)⟩

/-- C37: in every history the registry is sorted with printable keys, so that the two theorems above apply. -/
theorem C37_reachable (okAddr : Str → Bool) (hA : AsciiAddrs okAddr) (owner : A) (config : Config A)
    (pcs : List PairConfig) (s : State A) (h : instantiate owner config pcs = .ok s) (os : List (Op A)) :
    KvSorted (run okAddr s os).pairs ∧ Printable (run okAddr s os) := by
  have h0 : RegInv s := by
    simp only [instantiate, bind_ok_iff, require_ok, exists_const, Except.ok.injEq] at h
    obtain ⟨_, m, _, rfl⟩ := h
    exact ⟨List.Pairwise.nil, by simp [Printable]⟩
  have : ∀ (os : List (Op A)) (s : State A), RegInv s → RegInv (run okAddr s os) := by
    intro os
    induction os with
    | nil => intro s h; exact h
    | cons o os ih =>
      intro s h
      exact ih _ (commit'_inv RegInv h fun s' hs => exec_regInv hA h o hs)
  exact this os s h0

/-! ## C38 -/

theorem name_inj {t t' : PairType} (h : t.name = t'.name) : t = t' := by
  cases t <;> cases t' <;> simp [PairType.name] at h ⊢
  exact h

/-- Stored configurations: sorted, filed under their type, fees at most 100 %. -/
def CfgOk (m : List (Str × PairConfig)) : Prop :=
  KvSorted m ∧ ∀ x ∈ m, x.2.pairType.name = x.1 ∧ x.2.totalFeeBps ≤ 10000 ∧ x.2.makerFeeBps ≤ 10000

/-- See `CfgOk`. -/
def CfgInv (s : State A) : Prop := CfgOk s.pairConfigs

theorem valid_iff (c : PairConfig) : c.valid = true ↔ c.totalFeeBps ≤ 10000 ∧ c.makerFeeBps ≤ 10000 := by
  simp [PairConfig.valid]

theorem cfgOk_insert {c : PairConfig} {m : List (Str × PairConfig)} (hm : CfgOk m) (hc : c.valid = true) :
    CfgOk (kvInsert c.pairType.name c m) := by
  refine ⟨kvSorted_insert hm.1, fun x hx => ?_⟩
  rcases mem_kvInsert hx with rfl | hx
  · exact ⟨rfl, (valid_iff _).1 hc⟩
  · exact hm.2 x hx

theorem storeConfigs_inv : ∀ {pcs : List PairConfig} {m m' : List (Str × PairConfig)},
    storeConfigs pcs m = .ok m' → CfgOk m → CfgOk m'
  | [], m, m', h, hm => by simp only [storeConfigs, Except.ok.injEq] at h; subst h; exact hm
  | p :: pcs, m, m', h, hm => by
    simp only [storeConfigs, bind_ok_iff, require_ok, exists_const] at h
    exact storeConfigs_inv h.2 (cfgOk_insert hm h.1)

theorem exec_cfgInv {okAddr : Str → Bool} {s s' : State A} (hI : CfgInv s) (o : Op A)
    (hs : exec okAddr s o = .ok s') : CfgInv s' := by
  cases o with
  | own t =>
    simp only [exec, bind_ok_iff, Except.ok.injEq] at hs
    obtain ⟨_, _, rfl⟩ := hs; exact hI
  | updateConfig sender new =>
    simp only [exec, updateConfig, bind_ok_iff, require_ok, exists_const, Except.ok.injEq] at hs
    obtain ⟨_, rfl⟩ := hs; exact hI
  | updateTracker sender code tf =>
    simp only [exec, updateTracker, bind_ok_iff, require_ok, exists_const] at hs
    obtain ⟨_, hs⟩ := hs
    split at hs
    · simp only [Except.ok.injEq] at hs; subst hs; exact hI
    · simp only [bind_ok_iff, Except.ok.injEq] at hs
      obtain ⟨_, _, rfl⟩ := hs; exact hI
  | updatePairConfig sender p =>
    simp only [exec, updatePairConfig, bind_ok_iff, require_ok, exists_const, Except.ok.injEq] at hs
    obtain ⟨_, hv, rfl⟩ := hs
    exact cfgOk_insert hI hv
  | create sender t l inst =>
    obtain ⟨h1, h2, _, q, h6, rfl⟩ := create_ok.1 hs; exact hI
  | deregister sender l =>
    simp only [exec, bind_ok_iff, Except.ok.injEq] at hs
    obtain ⟨x, hx, rfl⟩ := hs
    obtain ⟨_, _, _, h4⟩ := deregister_ok.1 hx
    rw [h4]; exact hI

/-- C38: in every history the fees that pairs read from the factory are at most 100 %, and are those of a
configuration stored for exactly the queried type. -/
theorem C38_fees_bounded (okAddr : Str → Bool) (owner : A) (config : Config A) (pcs : List PairConfig) (s : State A)
    (h : instantiate owner config pcs = .ok s) (os : List (Op A)) (t : PairType) :
    (∀ f total maker, queryFeeInfo (run okAddr s os) t = some (f, total, maker) → total ≤ 10000 ∧ maker ≤ 10000) ∧
    ∀ c, kvGet t.name (run okAddr s os).pairConfigs = some c → c.pairType = t := by
  have h0 : CfgInv s := by
    simp only [instantiate, bind_ok_iff, require_ok, exists_const, Except.ok.injEq] at h
    obtain ⟨_, m, hm, rfl⟩ := h
    exact storeConfigs_inv hm ⟨List.Pairwise.nil, by simp⟩
  have hr : ∀ (os : List (Op A)) (s : State A), CfgInv s → CfgInv (run okAddr s os) := by
    intro os
    induction os with
    | nil => intro s h; exact h
    | cons o os ih =>
      intro s h
      exact ih _ (commit'_inv CfgInv h fun s' hs => exec_cfgInv h o hs)
  have hI := hr os s h0
  refine ⟨?_, fun c hc => name_inj (hI.2 _ (kvGet_mem hc)).1⟩
  intro f total maker hq
  unfold queryFeeInfo at hq
  rw [Option.map_eq_some_iff] at hq
  obtain ⟨c, hc, he⟩ := hq
  simp only [Prod.mk.injEq] at he
  have := hI.2 _ (kvGet_mem hc)
  dsimp only at this
  omega

/-- C38: creation needs an enabled type, and the owner for a permissioned type. -/
theorem C38_create_permission (okAddr : Str → Bool) (s s' : State A) (sender : A) (t : PairType) (infos : List Info)
    (inst : Option A) (h : create okAddr s sender t infos inst = .ok s') :
    ∃ c, kvGet t.name s.pairConfigs = some c ∧ c.isDisabled = false ∧ (c.permissioned = true → sender = s.own.owner) := by
  obtain ⟨_, _, ⟨c, h3, h4, h5⟩, _⟩ := create_ok.1 h
  refine ⟨c, h3, h5, fun hp => ?_⟩
  by_contra hne
  exact h4 ⟨hp, hne⟩

/-- C38: nobody but the owner changes the configuration, the pair configurations, or removes a pair. -/
theorem C38_only_owner (okAddr : Str → Bool) (s s' : State A) (o : Op A) (h : exec okAddr s o = .ok s')
    (hne : match (generalizing := false) o with
      | .updateConfig sender _ => sender ≠ s.own.owner
      | .updateTracker sender _ _ => sender ≠ s.own.owner
      | .updatePairConfig sender _ => sender ≠ s.own.owner
      | .deregister sender _ => sender ≠ s.own.owner
      | .own _ => True
      | .create _ _ _ _ => True) :
    s'.config = s.config ∧ s'.pairConfigs = s.pairConfigs ∧
    ∀ l p, queryPair s l = some p → queryPair s' l = some p := by
  cases o with
  | own t =>
    simp only [exec, bind_ok_iff, Except.ok.injEq] at h
    obtain ⟨_, _, rfl⟩ := h
    exact ⟨rfl, rfl, fun _ _ h => h⟩
  | updateConfig sender new =>
    simp only [exec, updateConfig, bind_ok_iff, require_ok, exists_const] at h
    exact absurd h.1 hne
  | updateTracker sender code tf =>
    simp only [exec, updateTracker, bind_ok_iff, require_ok, exists_const] at h
    exact absurd h.1 hne
  | updatePairConfig sender c =>
    simp only [exec, updatePairConfig, bind_ok_iff, require_ok, exists_const] at h
    exact absurd h.1 hne
  | create sender t l inst =>
    obtain ⟨_, h2, _, q, h6, rfl⟩ := create_ok.1 h
    refine ⟨rfl, rfl, fun l' p hp => ?_⟩
    unfold queryPair at hp ⊢
    rw [kvGet_insert]
    split_ifs with he
    · rw [he, h2] at hp; simp at hp
    · exact hp
  | deregister sender l =>
    simp only [exec, bind_ok_iff] at h
    obtain ⟨x, hx, _⟩ := h
    obtain ⟨_, h2, _⟩ := deregister_ok.1 hx
    exact absurd h2 hne

section Witness2

/-- A history: three pairs, one of them removed, a type disabled. -/
def wOps : List (Op Nat) :=
  [.create 3 .xyk [.native "uusd".toList, .native "uluna".toList] (some 70),
   .create 4 .xyk [.native "ukrw".toList, .native "uluna".toList] (some 71),
   .create 4 .xyk [.native "uluna".toList, .native "uusd".toList] (some 72),
   .create 4 .xyk [.native "ukrw".toList, .token "wasm1xyz".toList, .native "uusd".toList] (some 73),
   .updatePairConfig 0 ⟨7, .xyk, 40, 5000, true, false, false⟩,
   .create 4 .xyk [.native "ueur".toList, .native "uusd".toList] (some 74),
   .deregister 0 [.native "uluna".toList, .native "ukrw".toList]]

example : (run (fun _ => true) wState wOps).pairs.map Prod.snd = [73, 70] ∧
    queryPair (run (fun _ => true) wState wOps) [.native "uluna".toList, .native "uusd".toList] = some 70 ∧
    queryPair (run (fun _ => true) wState wOps) [.native "ukrw".toList, .native "uluna".toList] = none ∧
    queryFeeInfo (run (fun _ => true) wState wOps) .xyk = some (none, 40, 5000) ∧
    (readPairs (run (fun _ => true) wState wOps) (some [.native "uusd".toList, .token "wasm1xyz".toList,
      .native "ukrw".toList]) (some 1)).map Prod.snd = [70] := by decide +kernel

end Witness2

end Verif.Factory
