import Verif.Incentives.Alloc
import Verif.Base.Listing
import Mathlib.Data.List.Lex
import Mathlib.Order.Fin.Basic

/-!
# The list of blocked tokens of the incentives contract (C138)
-/

namespace Verif.Incentives.Alloc

open Verif

/-- packages/astroport/src/asset.rs:365-370, `AssetInfo`: the strings as their UTF-8 bytes. -/
inductive Tok
  | native (denom : List Nat)
  | cw20 (addr : List Nat)
  deriving DecidableEq

/-- contracts/tokenomics/incentives/src/utils.rs:488-502, `asset_info_key`. -/
def tokKey : Tok → List Nat
  | .native d => 0 :: d
  | .cw20 a => 1 :: a

/-- contracts/tokenomics/incentives/src/utils.rs:504-516, `from_key_to_asset_info`.  An empty key panics.  The bytes of a
stored string are valid UTF-8. -/
def fromKey : List Nat → Res Tok
  | 0 :: d => .ok (.native d)
  | 1 :: a => .ok (.cw20 a)
  | _ => .error (.invalid "Failed to deserialize asset info key")

variable {P U : Type} [DecidableEq P] [DecidableEq U]

/-- The storage map with the keys of the given tokens. -/
def storeOf : List Tok → List (List Nat × Unit)
  | [] => []
  | t :: ts => kvInsert (tokKey t) () (storeOf ts)

/-- The entries of `BLOCKED_TOKENS` (contracts/tokenomics/incentives/src/state.rs:26), ascending by key. -/
def blockedStore (s : State P Tok) : List (List Nat × Unit) := storeOf s.blocked

/-- The keys of a page turned back into assets. -/
def decodeKeys : List (List Nat × Unit) → Res (List Tok)
  | [] => .ok []
  | e :: es => do
    let t ← fromKey e.1
    let ts ← decodeKeys es
    .ok (t :: ts)

/-- contracts/tokenomics/incentives/src/query.rs:140-161, `query_blocked_tokens`: 50 by default. -/
def blockedTokensList (s : State P Tok) (startAfter : Option Tok) (limit : Option Nat) : Res (List Tok) :=
  decodeKeys (kvPage (blockedStore s) (startAfter.map tokKey) (limit.getD 50))

/-- A reader of the list: `n` pages, each starting after the last token of the one before. -/
def readBlocked (page : Option Tok → Res (List Tok)) : Nat → Option Tok → Res (List Tok)
  | 0, _ => .ok []
  | n + 1, start => do
    let p ← page start
    match p.getLast? with
    | none => .ok []
    | some t => do
      let rest ← readBlocked page n (some t)
      .ok (p ++ rest)

theorem fromKey_tokKey (t : Tok) : fromKey (tokKey t) = .ok t := by
  cases t <;> rfl

theorem tokKey_injective : Function.Injective tokKey := fun a b h => by
  have := fromKey_tokKey a
  rw [h, fromKey_tokKey] at this
  exact (Except.ok.inj this).symm

theorem decodeKeys_ok : ∀ l : List (List Nat × Unit), (∀ e ∈ l, ∃ t, e.1 = tokKey t) →
    ∃ ts, decodeKeys l = .ok ts ∧ ts.map tokKey = l.map Prod.fst
  | [], _ => ⟨[], rfl, rfl⟩
  | e :: es, h => by
    obtain ⟨t, ht⟩ := h e (by simp)
    obtain ⟨ts, h1, h2⟩ := decodeKeys_ok es fun e he => h e (by simp [he])
    refine ⟨t :: ts, ?_, by simp [h2, ht]⟩
    unfold decodeKeys
    rw [ht, fromKey_tokKey, h1]
    rfl

theorem storeOf_sorted : ∀ ts, KvSorted (storeOf ts)
  | [] => List.Pairwise.nil
  | _ :: ts => kvSorted_insert (storeOf_sorted ts)

theorem mem_storeOf {k : List Nat} : ∀ {ts}, (k, ()) ∈ storeOf ts ↔ ∃ t ∈ ts, tokKey t = k
  | [] => by simp [storeOf]
  | u :: ts => by
    have hs := storeOf_sorted (u :: ts)
    constructor
    · intro h
      rcases mem_kvInsert h with h | h
      · exact ⟨u, by simp, (Prod.mk.inj h).1.symm⟩
      · obtain ⟨t, ht, e⟩ := mem_storeOf.1 h
        exact ⟨t, by simp [ht], e⟩
    · rintro ⟨t, ht, rfl⟩
      apply kvGet_mem
      unfold storeOf
      rw [kvGet_insert]
      split
      · rfl
      · rename_i hne
        rcases List.mem_cons.1 ht with rfl | ht
        · exact absurd rfl hne
        · exact kvGet_of_mem (storeOf_sorted ts) (mem_storeOf.2 ⟨t, ht, rfl⟩)

theorem kvInsert_length {K V : Type} [LinearOrder K] (k : K) (v : V) : ∀ l : List (K × V),
    (kvInsert k v l).length ≤ l.length + 1
  | [] => by simp [kvInsert]
  | (k', v') :: rest => by
    have := kvInsert_length k v rest
    unfold kvInsert
    split
    · simp
    · split
      · simp
      · simpa using this

theorem storeOf_length : ∀ ts, (storeOf ts).length ≤ ts.length
  | [] => le_refl _
  | t :: ts => le_trans (kvInsert_length _ _ _) (Nat.succ_le_succ (storeOf_length ts))

theorem kvPage_mem {K V : Type} [LinearOrder K] {l : List (K × V)} {a : Option K} {m : Nat} {e : K × V}
    (h : e ∈ kvPage l a m) : e ∈ l := by
  unfold kvPage at h
  have h := List.mem_of_mem_take h
  cases a with
  | none => exact h
  | some k =>
    simp only [Option.map_some, Option.getD_some, kvAfter] at h
    exact (List.mem_filter.1 h).1

omit [DecidableEq P] in
theorem readBlocked_walk (s : State P Tok) (limit : Option Nat) : ∀ (n : Nat) (start : Option Tok),
    ∃ ts, readBlocked (fun a => blockedTokensList s a limit) n start = .ok ts ∧
      ts.map tokKey = (kvWalk (blockedStore s) (limit.getD 50) n (start.map tokKey)).map Prod.fst
  | 0, _ => ⟨[], rfl, rfl⟩
  | n + 1, start => by
    obtain ⟨p, h1, h2⟩ := decodeKeys_ok (kvPage (blockedStore s) (start.map tokKey) (limit.getD 50)) (by
      rintro ⟨k, ⟨⟩⟩ he
      obtain ⟨t, _, ht⟩ := mem_storeOf.1 (kvPage_mem he)
      exact ⟨t, ht.symm⟩)
    have h3 : blockedTokensList s start limit = .ok p := h1
    unfold readBlocked kvWalk
    rw [h3, ok_bind]
    have hl : (kvPage (blockedStore s) (start.map tokKey) (limit.getD 50)).getLast?.map Prod.fst =
        p.getLast?.map tokKey := by rw [← List.getLast?_map, ← List.getLast?_map, h2]
    cases hp : p.getLast? with
    | none =>
      rw [hp] at hl
      rw [Option.map_eq_none_iff.1 hl]
      exact ⟨[], rfl, rfl⟩
    | some t =>
      rw [hp] at hl
      obtain ⟨e, he, hk⟩ := Option.map_eq_some_iff.1 hl
      rw [he]
      obtain ⟨ts, h4, h5⟩ := readBlocked_walk s limit n (some t)
      refine ⟨p ++ ts, ?_, ?_⟩
      · simp only [h4, ok_bind]
      · simp only [List.map_append, h2, h5, Option.map_some, hk]

/-- **C138.**  After every history, a reader of `BlockedTokensList` with any limit but zero gets exactly the tokens that
are blocked, each once and as the asset that was given, native coins before cw20 tokens. -/
theorem C138_all_blocked_listed (c : Cfg P Tok U) (os : List (Op P Tok U)) (limit : Option Nat)
    (hl : limit ≠ some 0) (n : Nat) (hn : (run c State.init os).blocked.length ≤ n) :
    ∃ l, readBlocked (fun a => blockedTokensList (run c State.init os) a limit) n none = .ok l ∧ l.Nodup ∧
      (∀ t, t ∈ l ↔ t ∈ (run c State.init os).blocked) ∧
      l.Pairwise fun t u => ∀ a d, t = .cw20 a → u ≠ .native d := by
  set s := run c State.init os
  obtain ⟨l, h1, h2⟩ := readBlocked_walk s limit n none
  have hm : 0 < limit.getD 50 := by
    cases limit with
    | none => decide
    | some k => exact Nat.pos_of_ne_zero fun h => hl (by rw [← h]; rfl)
  unfold blockedStore at h2
  rw [Option.map_none, kvWalk_complete _ (storeOf_sorted s.blocked) _ _ hm (le_trans (storeOf_length s.blocked) hn)] at h2
  have hs : (l.map tokKey).Pairwise (· < ·) := by
    rw [h2]
    exact List.pairwise_map.2 (storeOf_sorted s.blocked)
  rw [List.pairwise_map] at hs
  refine ⟨l, h1, hs.imp fun {a b} h e => ?_, fun t => ?_, hs.imp fun {a b} h x d hx hd => ?_⟩
  · rw [e] at h
    exact absurd h (lt_irrefl _)
  · rw [← List.mem_map_of_injective tokKey_injective, h2]
    constructor
    · intro h
      obtain ⟨⟨k, ⟨⟩⟩, he, hk⟩ := List.mem_map.1 h
      obtain ⟨t', ht', e⟩ := mem_storeOf.1 he
      rw [← tokKey_injective (e.trans hk)]
      exact ht'
    · intro h
      exact List.mem_map.2 ⟨(tokKey t, ()), mem_storeOf.2 ⟨t, h, rfl⟩, rfl⟩
  · subst hx hd
    have h : (1 :: x) < (0 :: d) := h
    rw [List.cons_lt_cons_iff] at h
    omega

/-! ## How the list changes -/

variable {T : Type} [DecidableEq T]

theorem unblock_exact : ∀ {r b b' : List T}, b.Nodup → unblock r b = .ok b' →
    b'.Nodup ∧ (∀ t ∈ r, t ∈ b) ∧ ∀ t, t ∈ b' ↔ t ∈ b ∧ t ∉ r
  | [], b, b', hn, h => by
    simp only [unblock, Except.ok.injEq] at h
    subst h
    exact ⟨hn, by simp, by simp⟩
  | x :: r, b, b', hn, h => by
    simp only [unblock, bind_ok_iff, require_ok, exists_const] at h
    obtain ⟨hx, h⟩ := h
    obtain ⟨h1, h2, h3⟩ := unblock_exact (hn.erase x) h
    refine ⟨h1, ?_, fun t => ?_⟩
    · intro t ht
      rcases List.mem_cons.1 ht with rfl | ht
      · exact hx
      · exact List.mem_of_mem_erase (h2 t ht)
    · rw [h3, hn.mem_erase_iff]
      simp only [List.mem_cons, not_or]
      tauto

omit [DecidableEq P] [DecidableEq U] in
theorem blockLoop_exact {c : Cfg P T U} {active : List (P × Nat)} : ∀ {ts b : List T} {dis : List (P × Nat)}
    {bd : List T × List (P × Nat)}, b.Nodup → blockLoop c active ts b dis = .ok bd →
    bd.1.Nodup ∧ (∀ t ∈ ts, t ∉ b ∧ t ≠ c.astro) ∧ ∀ t, t ∈ bd.1 ↔ t ∈ b ∨ t ∈ ts
  | [], b, dis, bd, hn, h => by
    simp only [blockLoop, Except.ok.injEq] at h
    subst h
    exact ⟨hn, by simp, by simp⟩
  | x :: ts, b, dis, bd, hn, h => by
    simp only [blockLoop, bind_ok_iff, require_ok, exists_const] at h
    obtain ⟨hx, ha, h⟩ := h
    obtain ⟨h1, h2, h3⟩ := blockLoop_exact (List.nodup_cons.2 ⟨hx, hn⟩) h
    refine ⟨h1, ?_, fun t => ?_⟩
    · intro t ht
      rcases List.mem_cons.1 ht with rfl | ht
      · exact ⟨hx, ha⟩
      · exact ⟨fun hb => (h2 t ht).1 (by simp [hb]), (h2 t ht).2⟩
    · rw [h3]
      simp only [List.mem_cons]
      tauto

theorem updateBlocked_exact {c : Cfg P T U} {s s' : State P T} {sender : U} {add remove : List T}
    (hn : s.blocked.Nodup) (h : updateBlocked c s sender add remove = .ok s') :
    s'.blocked.Nodup ∧ (sender = c.owner ∨ some sender = c.guardian) ∧ (∀ t ∈ remove, t ∈ s.blocked) ∧
      (∀ t ∈ add, t ∉ s.blocked ∧ t ≠ c.astro) ∧
      ∀ t, t ∈ s'.blocked ↔ (t ∈ s.blocked ∧ t ∉ remove) ∨ t ∈ add := by
  simp only [updateBlocked, bind_ok_iff, require_ok, exists_const] at h
  obtain ⟨hp, hd, b, hb, bd, hbd, h⟩ := h
  obtain ⟨n1, r1, m1⟩ := unblock_exact hn hb
  obtain ⟨n2, r2, m2⟩ := blockLoop_exact n1 hbd
  have hs : s'.blocked = bd.1 := by
    split at h
    · simp only [Except.ok.injEq] at h; rw [← h]
    · simp only [bind_ok_iff, Except.ok.injEq] at h
      obtain ⟨_, _, _, _, _, _, rfl⟩ := h
      rfl
  rw [hs]
  refine ⟨n2, hp, r1, fun t ht => ⟨fun hb' => ?_, (r2 t ht).2⟩, fun t => by rw [m2, m1]⟩
  exact (r2 t ht).1 ((m1 t).2 ⟨hb', fun hr => (List.nodup_append.1 hd).2.2 t hr t ht rfl⟩)

theorem exec_other {c : Cfg P T U} {s s' : State P T} {o : Op P T U} (h : exec c s o = .ok s')
    (ho : ∀ a b r, o ≠ .updateBlocked a b r) : s'.blocked = s.blocked := by
  cases o with
  | setup e sender pools =>
    simp only [exec, setupPools, bind_ok_iff, require_ok, exists_const, Except.ok.injEq] at h
    grind
  | setRate sender amount =>
    simp only [exec, setTokensPerSecond, bind_ok_iff, require_ok, exists_const, Except.ok.injEq] at h
    grind
  | deactivate sender p =>
    simp only [exec, deactivatePool, bind_ok_iff, require_ok, exists_const] at h
    obtain ⟨_, h⟩ := h
    split at h
    · simp only [Except.ok.injEq] at h; rw [← h]
    · simp only [bind_ok_iff, Except.ok.injEq] at h
      obtain ⟨_, _, _, _, _, _, rfl⟩ := h
      rfl
  | updateBlocked sender add remove => exact absurd rfl (ho _ _ _)
  | deactivateBlocked e => exact (C74_authority c s s' (.deactivateBlocked e) h).1

theorem run_nodup (c : Cfg P T U) (os : List (Op P T U)) : (run c State.init os).blocked.Nodup := by
  have : ∀ (os : List (Op P T U)) (s : State P T), s.blocked.Nodup → (run c s os).blocked.Nodup := by
    intro os
    induction os with
    | nil => intro s h; exact h
    | cons o os ih =>
      intro s h
      refine ih _ (commit'_inv (fun s : State P T => s.blocked.Nodup) h ?_)
      intro s' hx
      cases o with
      | updateBlocked sender add remove => exact (updateBlocked_exact h hx).1
      | _ => rw [exec_other hx (by intros; nofun)]; exact h
  exact this os _ (by simp [State.init])

/-- **C138.**  In every history, a call changes what is blocked only as an update of the list by the owner or the
guardian, and then exactly as asked: what it removes was blocked, what it adds was not, nothing else changes. -/
theorem C138_list_changes_as_asked (c : Cfg P T U) (os : List (Op P T U)) (o : Op P T U) (s' : State P T)
    (h : exec c (run c State.init os) o = .ok s') :
    s'.blocked = (run c State.init os).blocked ∨
      ∃ sender add remove, o = .updateBlocked sender add remove ∧
        (sender = c.owner ∨ some sender = c.guardian) ∧
        (∀ t ∈ remove, t ∈ (run c State.init os).blocked) ∧ (∀ t ∈ add, t ∉ (run c State.init os).blocked) ∧
        ∀ t, t ∈ s'.blocked ↔ (t ∈ (run c State.init os).blocked ∧ t ∉ remove) ∨ t ∈ add := by
  cases o with
  | updateBlocked sender add remove =>
    obtain ⟨_, h1, h2, h3, h4⟩ := updateBlocked_exact (run_nodup c os) h
    exact .inr ⟨sender, add, remove, rfl, h1, h2, fun t ht => (h3 t ht).1, h4⟩
  | _ => exact .inl (exec_other h (by intros; nofun))

/-- ASTRO is a native coin; no pools. -/
def bCfg : Cfg (Fin 1) Tok (Fin 3) := ⟨0, none, some 2, 1, .native [97], fun _ => []⟩
/-- The guardian blocks three tokens, two of them with the same name; the owner unblocks one and blocks another. -/
def bOps : List (Op (Fin 1) Tok (Fin 3)) :=
  [.updateBlocked 2 [.cw20 [98, 99], .native [120], .native [98, 99]] [], .updateBlocked 0 [.native [98]] [.native [120]],
    .updateBlocked 0 [.native [97]] []]

example : okAnd (readBlocked (fun a => blockedTokensList (run bCfg State.init bOps) a (some 2)) 3 none)
    (fun l => decide (l = [.native [98], .native [98, 99], .cw20 [98, 99]])) = true := by
  have h : blockedStore (run bCfg State.init bOps) = [([0, 98], ()), ([0, 98, 99], ()), ([1, 98, 99], ())] := by
    decide +kernel
  unfold blockedTokensList
  rw [h]
  decide +kernel

end Verif.Incentives.Alloc
