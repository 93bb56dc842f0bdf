import Verif.Factory.Model
import Mathlib.Data.Char

/-!
# Migrating the factory's pair configurations (C131)
-/

namespace Verif.Factory

open Verif.Asset

/-- `OldPairType` (`contracts/factory/src/migration.rs:9-19`). -/
inductive OldPairType
  | xyk
  | stable
  | concentrated
  | custom (name : Str)
  deriving DecidableEq, Repr

/-- `OldPairConfig` (`contracts/factory/src/migration.rs:21-30`). -/
structure OldPairConfig where
  codeId : Nat
  pairType : OldPairType
  totalFeeBps : Nat
  makerFeeBps : Nat
  isDisabled : Bool
  isGeneratorDisabled : Bool
  deriving DecidableEq, Repr

/-- What is stored under a key: the format of the old or of the new factory.  Loading one as the other fails
(`cw_serde` denies unknown fields, and `permissioned` is one for the old format). -/
inductive Cell
  | old (c : OldPairConfig)
  | new (c : PairConfig)
  deriving DecidableEq

def keyConcentrated : Str := ['c', 'o', 'n', 'c', 'e', 'n', 't', 'r', 'a', 't', 'e', 'd']

/-- The key under which the old factory stored a type (its `to_string`). -/
def OldPairType.name : OldPairType → Str
  | .xyk => ['x', 'y', 'k']
  | .stable => ['s', 't', 'a', 'b', 'l', 'e']
  | .concentrated => keyConcentrated
  | .custom n => ['c', 'u', 's', 't', 'o', 'm', '-'] ++ n

/-- The new type of a config (`contracts/factory/src/migration.rs:42-47`). -/
def OldPairType.convert : OldPairType → PairType
  | .xyk => .xyk
  | .stable => .stable
  | .concentrated => .custom keyConcentrated
  | .custom n => .custom n

/-- The new config (`contracts/factory/src/migration.rs:49-57`). -/
def OldPairConfig.convert (c : OldPairConfig) : PairConfig :=
  { codeId := c.codeId, pairType := c.pairType.convert, totalFeeBps := c.totalFeeBps, makerFeeBps := c.makerFeeBps,
    isDisabled := c.isDisabled, isGeneratorDisabled := c.isGeneratorDisabled, permissioned := false }

/-- `OLD_PAIR_CONFIGS.load` (`contracts/factory/src/migration.rs:40`). -/
def loadOld (m : Str → Option Cell) (key : Str) : Res OldPairConfig :=
  match m key with
  | some (.old c) => .ok c
  | some (.new _) => .error (.invalid "unknown field")
  | none => .error (.invalid "not found")

/-- The loop of `migrate_pair_configs` (`contracts/factory/src/migration.rs:39-66`). -/
def migrateLoop : List Str → (Str → Option Cell) → Res (Str → Option Cell)
  | [], m => .ok m
  | key :: ks, m => do
    let c ← loadOld m key
    let n := c.convert
    migrateLoop ks (if key ≠ n.pairType.name then
        Function.update (Function.update m key none) n.pairType.name (some (.new n))
      else Function.update m key (some (.new n)))

/-- The storage of an old factory: `keys` are the keys in ascending order (`Map::keys`, `contracts/factory/src/migration.rs:35-37`), and each
config is stored under the name of its type. -/
structure OldStore (keys : List Str) (m : Str → Option Cell) : Prop where
  sorted : keys.Pairwise (· < ·)
  dom : ∀ k, k ∈ keys ↔ m k ≠ none
  own : ∀ k ∈ keys, ∃ c, m k = some (.old c) ∧ c.pairType.name = k

/-! ## What it should do -/

/-- The new config says the same as the old one; the type `concentrated` is now the custom type of that name, and nothing
became permissioned. -/
structure Kept (c : OldPairConfig) (n : PairConfig) : Prop where
  code : n.codeId = c.codeId
  total : n.totalFeeBps = c.totalFeeBps
  maker : n.makerFeeBps = c.makerFeeBps
  disabled : n.isDisabled = c.isDisabled
  generator : n.isGeneratorDisabled = c.isGeneratorDisabled
  permissioned : n.permissioned = false
  type : match c.pairType with
    | .xyk => n.pairType = .xyk
    | .stable => n.pairType = .stable
    | .concentrated => n.pairType = .custom keyConcentrated
    | .custom s => n.pairType = .custom s

/-! ## Proofs -/

def keyCustomConcentrated : Str := ['c', 'u', 's', 't', 'o', 'm', '-'] ++ keyConcentrated

/-- Where a config moves. -/
def newKey (k : Str) : Str := if k = keyConcentrated then keyCustomConcentrated else k

theorem convert_name (t : OldPairType) : t.convert.name = newKey t.name := by
  cases t with
  | xyk => decide
  | stable => decide
  | concentrated => decide
  | custom n =>
    have : (['c', 'u', 's', 't', 'o', 'm', '-'] ++ n : Str) ≠ keyConcentrated := by
      intro h
      have := congrArg (fun l => l[1]?) h
      simp [keyConcentrated] at this
    show ['c', 'u', 's', 't', 'o', 'm', '-'] ++ n = newKey (['c', 'u', 's', 't', 'o', 'm', '-'] ++ n)
    unfold newKey
    rw [if_neg this]

theorem newKey_ne {k : Str} (h : k ≠ keyConcentrated) : newKey k = k := if_neg h

theorem key_lt : keyConcentrated < keyCustomConcentrated := by decide

/-- One round of the loop, for any key. -/
theorem migrateLoop_cons {key : Str} {ks : List Str} {m : Str → Option Cell} {c : OldPairConfig}
    (h : m key = some (.old c)) (hk : c.pairType.name = key) :
    migrateLoop (key :: ks) m = migrateLoop ks (Function.update
      (if key = keyConcentrated then Function.update m key none else m) (newKey key) (some (.new c.convert))) := by
  have hn : c.convert.pairType.name = newKey key := by rw [← hk]; exact convert_name _
  show (loadOld m key >>= fun c => _) = _
  unfold loadOld
  rw [h]
  simp only [ok_bind, hn]
  by_cases hc : key = keyConcentrated
  · have : key ≠ newKey key := by
      rw [hc]; unfold newKey; rw [if_pos rfl]; exact ne_of_lt key_lt
    rw [if_pos this, if_pos hc]
  · rw [if_neg (by rw [newKey_ne hc]; simp), if_neg hc, newKey_ne hc]

theorem migrateLoop_ok : ∀ (ks : List Str) (m : Str → Option Cell), ks.Nodup →
    (∀ k ∈ ks, ∃ c, m k = some (.old c) ∧ c.pairType.name = k) →
    ¬ (keyConcentrated ∈ ks ∧ keyCustomConcentrated ∈ ks) →
    ∃ m', migrateLoop ks m = .ok m' ∧
      (∀ k ∈ ks, ∀ c, m k = some (.old c) → m' (newKey k) = some (.new c.convert)) ∧
      (∀ k, k ∉ ks → (∀ k0 ∈ ks, k ≠ newKey k0) → m' k = m k) ∧
      (∀ k, k ∈ ks → (∀ k0 ∈ ks, k ≠ newKey k0) → m' k = none)
  | [], m, _, _, _ => ⟨m, rfl, by simp, by simp, by simp⟩
  | key :: ks, m, hnd, hold, hcol => by
    rw [List.nodup_cons] at hnd
    obtain ⟨c, hc, hck⟩ := hold key (by simp)
    rw [migrateLoop_cons hc hck]
    set m1 := Function.update (if key = keyConcentrated then Function.update m key none else m) (newKey key)
      (some (.new c.convert)) with hm1
    have hnk : newKey key ∉ ks := by
      by_cases h : key = keyConcentrated
      · intro hin
        apply hcol
        rw [h]
        refine ⟨by simp, List.mem_cons_of_mem _ ?_⟩
        rwa [h, show newKey keyConcentrated = keyCustomConcentrated from if_pos rfl] at hin
      · rw [newKey_ne h]; exact hnd.1
    have hsame : ∀ k, k ≠ newKey key → k ≠ key → m1 k = m k := by
      intro k h1 h2
      rw [hm1, Function.update_of_ne h1]
      split
      · rw [Function.update_of_ne h2]
      · rfl
    have hin : ∀ k ∈ ks, m1 k = m k := by
      intro k hk
      exact hsame k (fun h => hnk (h ▸ hk)) (fun h => hnd.1 (h ▸ hk))
    obtain ⟨m', h0, h1, h2, h3⟩ := migrateLoop_ok ks m1 hnd.2
      (fun k hk => by rw [hin k hk]; exact hold k (by simp [hk]))
      (fun h => hcol ⟨by simp [h.1], by simp [h.2]⟩)
    have hdis : ∀ k0 ∈ ks, newKey key ≠ newKey k0 := by
      intro k0 hk0 he
      by_cases ha : key = keyConcentrated
      · by_cases hb : k0 = keyConcentrated
        · exact hnd.1 (by rw [ha, ← hb]; exact hk0)
        · rw [newKey_ne hb] at he; rw [he] at hnk; exact hnk hk0
      · by_cases hb : k0 = keyConcentrated
        · rw [newKey_ne ha, hb, show newKey keyConcentrated = keyCustomConcentrated from if_pos rfl] at he
          exact hcol ⟨List.mem_cons_of_mem _ (hb ▸ hk0), by rw [he]; simp⟩
        · rw [newKey_ne ha, newKey_ne hb] at he; exact hnd.1 (he ▸ hk0)
    refine ⟨m', h0, ?_, ?_, ?_⟩
    · intro k hk c' hc'
      rcases List.mem_cons.1 hk with rfl | hk
      · rw [hc] at hc'
        obtain rfl : c = c' := by simpa using hc'
        rw [h2 _ hnk hdis, hm1, Function.update_self]
      · exact h1 k hk c' (by rw [hin k hk]; exact hc')
    · intro k hk hne
      rw [List.mem_cons, not_or] at hk
      rw [h2 k hk.2 (fun k0 h => hne k0 (by simp [h])), hsame k (hne key (by simp)) hk.1]
    · intro k hk hne
      rcases List.mem_cons.1 hk with rfl | hk
      · rw [h2 k hnd.1 (fun k0 h => hne k0 (by simp [h])), hm1, Function.update_of_ne (hne k (by simp))]
        by_cases h : k = keyConcentrated
        · rw [if_pos h, Function.update_self]
        · exact absurd (newKey_ne h).symm (hne k (by simp))
      · exact h3 k hk (fun k0 h => hne k0 (by simp [h]))

/-- Once the new format is under a key still to be read, the loop fails. -/
theorem migrateLoop_fails : ∀ (ks : List Str) (m : Str → Option Cell) (k : Str) (n : PairConfig), k ∈ ks →
    m k = some (.new n) → k ≠ keyConcentrated → (∀ k0 ∈ ks, k0 ≠ keyConcentrated) → ks.Nodup →
    (∀ k0 ∈ ks, k0 ≠ k → ∃ c, m k0 = some (.old c) ∧ c.pairType.name = k0) → ∃ e, migrateLoop ks m = .error e
  | [], _, _, _, h, _, _, _, _, _ => by simp at h
  | key :: ks, m, k, n, hin, hm, hk, hnc, hnd, hold => by
    rw [List.nodup_cons] at hnd
    by_cases he : key = k
    · subst he
      refine ⟨.invalid "unknown field", ?_⟩
      show (loadOld m key >>= fun c => _) = _
      unfold loadOld
      rw [hm]
      rfl
    · obtain ⟨c, hc, hck⟩ := hold key (by simp) he
      rw [migrateLoop_cons hc hck, newKey_ne (hnc key (by simp)), if_neg (hnc key (by simp))]
      have hin' : k ∈ ks := by
        rcases List.mem_cons.1 hin with h | h
        · exact absurd h.symm he
        · exact h
      refine migrateLoop_fails ks _ k n hin' (by rw [Function.update_of_ne (Ne.symm he)]; exact hm) hk
        (fun k0 h => hnc k0 (by simp [h])) hnd.2 ?_
      intro k0 h0 hne
      rw [Function.update_of_ne (fun h : k0 = key => hnd.1 (h ▸ h0))]
      exact hold k0 (by simp [h0]) hne

theorem migrateLoop_collision : ∀ (ks : List Str) (m : Str → Option Cell), ks.Pairwise (· < ·) →
    (∀ k ∈ ks, ∃ c, m k = some (.old c) ∧ c.pairType.name = k) →
    keyConcentrated ∈ ks → keyCustomConcentrated ∈ ks → ∃ e, migrateLoop ks m = .error e
  | [], _, _, _, h, _ => by simp at h
  | key :: ks, m, hs, hold, h1, h2 => by
    rw [List.pairwise_cons] at hs
    have hnd : key ∉ ks := fun h => lt_irrefl _ (hs.1 key h)
    obtain ⟨c, hc, hck⟩ := hold key (by simp)
    rw [migrateLoop_cons hc hck]
    by_cases ha : key = keyConcentrated
    · rw [if_pos ha, ha, show newKey keyConcentrated = keyCustomConcentrated from if_pos rfl]
      have hin : keyCustomConcentrated ∈ ks := by
        rcases List.mem_cons.1 h2 with h | h
        · exact absurd (h.trans ha) (ne_of_gt key_lt)
        · exact h
      refine migrateLoop_fails ks _ keyCustomConcentrated c.convert hin (Function.update_self ..) (ne_of_gt key_lt)
        (fun k0 h0 h => hnd (by rw [ha, ← h]; exact h0))
        (hs.2.imp fun h => ne_of_lt h) ?_
      intro k0 h0 hne
      rw [Function.update_of_ne hne, Function.update_of_ne (fun h => hnd (by rw [ha, ← h]; exact h0))]
      exact hold k0 (by simp [h0])
    · rw [if_neg ha, newKey_ne ha]
      have h1' : keyConcentrated ∈ ks := by
        rcases List.mem_cons.1 h1 with h | h
        · exact absurd h.symm ha
        · exact h
      have h2' : keyCustomConcentrated ∈ ks := by
        rcases List.mem_cons.1 h2 with h | h
        · have := hs.1 _ h1'
          rw [← h] at this
          exact absurd key_lt (not_lt.2 (le_of_lt this))
        · exact h
      refine migrateLoop_collision ks _ hs.2 ?_ h1' h2'
      intro k0 h0
      rw [Function.update_of_ne (fun h : k0 = key => hnd (h ▸ h0))]
      exact hold k0 (by simp [h0])

/-! ## The property -/

/-- **C131.**  Migrating the factory keeps every pair configuration and invents none: the new store contains exactly the
old configs, in the new format, each under the name of its type.  (The hypothesis excludes a factory with both a type
`concentrated` and a custom type named so, see `C131_ambiguous_refused`.) -/
theorem C131_configs_kept (keys : List Str) (m : Str → Option Cell) (h : OldStore keys m)
    (hcol : ¬ (m OldPairType.concentrated.name ≠ none ∧ m (OldPairType.custom keyConcentrated).name ≠ none)) :
    ∃ m', migrateLoop keys m = .ok m' ∧
      (∀ k c, m k = some (.old c) → ∃ n, m' n.pairType.name = some (.new n) ∧ Kept c n) ∧
      (∀ k x, m' k = some x → ∃ n, x = .new n ∧ n.pairType.name = k ∧ ∃ k0 c, m k0 = some (.old c) ∧ Kept c n) := by
  have hnd : keys.Nodup := h.sorted.imp fun h => ne_of_lt h
  have hcol' : ¬ (keyConcentrated ∈ keys ∧ keyCustomConcentrated ∈ keys) := by
    rw [h.dom, h.dom]; exact hcol
  obtain ⟨m', h0, h1, h2, h3⟩ := migrateLoop_ok keys m hnd h.own hcol'
  have hkept : ∀ c : OldPairConfig, Kept c c.convert := by
    intro c
    refine ⟨rfl, rfl, rfl, rfl, rfl, rfl, ?_⟩
    cases hc : c.pairType <;> simp [OldPairConfig.convert, OldPairType.convert, hc]
  have hname : ∀ k ∈ keys, ∀ c, m k = some (.old c) → c.convert.pairType.name = newKey k := by
    intro k hk c hc
    obtain ⟨c', hc', hn⟩ := h.own k hk
    rw [hc] at hc'
    obtain rfl : c = c' := by simpa using hc'
    rw [← hn]; exact convert_name _
  refine ⟨m', h0, ?_, ?_⟩
  · intro k c hc
    have hk : k ∈ keys := (h.dom k).2 (by rw [hc]; simp)
    exact ⟨c.convert, by rw [hname k hk c hc]; exact h1 k hk c hc, hkept c⟩
  · intro k x hx
    by_cases he : ∃ k0 ∈ keys, k = newKey k0
    · obtain ⟨k0, hk0, rfl⟩ := he
      obtain ⟨c, hc, hn⟩ := h.own k0 hk0
      rw [h1 k0 hk0 c hc] at hx
      obtain rfl : Cell.new c.convert = x := by simpa using hx
      exact ⟨c.convert, rfl, hname k0 hk0 c hc, k0, c, hc, hkept c⟩
    · push Not at he
      by_cases hk : k ∈ keys
      · rw [h3 k hk he] at hx; simp at hx
      · rw [h2 k hk he] at hx
        exact absurd ((h.dom k).2 (by rw [hx]; simp)) hk

/-- **C131.**  A factory in which both names are taken cannot be migrated: the migration fails as a whole, so neither config
is overwritten by the other. -/
theorem C131_ambiguous_refused (keys : List Str) (m : Str → Option Cell) (h : OldStore keys m)
    (h1 : m OldPairType.concentrated.name ≠ none) (h2 : m (OldPairType.custom keyConcentrated).name ≠ none) :
    ∃ e, migrateLoop keys m = .error e :=
  migrateLoop_collision keys m h.sorted h.own ((h.dom _).2 h1) ((h.dom _).2 h2)

/-! ## Concrete cases -/

def wCell (t : OldPairType) (total : Nat) : Option Cell := some (.old ⟨7, t, total, 3333, false, true⟩)

def wStore (k : Str) : Option Cell :=
  if k = OldPairType.xyk.name then wCell .xyk 30
  else if k = OldPairType.concentrated.name then wCell .concentrated 0
  else if k = (OldPairType.custom ['t']).name then wCell (.custom ['t']) 5 else none

def wKeys : List Str := [OldPairType.concentrated.name, (OldPairType.custom ['t']).name, OldPairType.xyk.name]

theorem wStore_old : OldStore wKeys wStore := by
  refine ⟨by decide +kernel, ?_, ?_⟩
  · intro k
    unfold wStore wKeys wCell
    simp only [List.mem_cons, List.not_mem_nil, or_false]
    constructor
    · rintro (rfl | rfl | rfl) <;> decide +kernel
    · intro h
      by_contra hc
      push Not at hc
      rw [if_neg hc.2.2, if_neg hc.1, if_neg hc.2.1] at h
      exact h rfl
  · intro k hk
    simp only [wKeys, List.mem_cons, List.not_mem_nil, or_false] at hk
    rcases hk with rfl | rfl | rfl
    · exact ⟨⟨7, .concentrated, 0, 3333, false, true⟩, by decide +kernel, rfl⟩
    · exact ⟨⟨7, .custom ['t'], 5, 3333, false, true⟩, by decide +kernel, rfl⟩
    · exact ⟨⟨7, .xyk, 30, 3333, false, true⟩, by decide +kernel, rfl⟩

example : okAnd (migrateLoop wKeys wStore) (fun m =>
    decide (m keyCustomConcentrated = some (.new ⟨7, .custom keyConcentrated, 0, 3333, false, true, false⟩) ∧
      m keyConcentrated = none ∧ m PairType.xyk.name = some (.new ⟨7, .xyk, 30, 3333, false, true, false⟩))) = true := by
  decide +kernel

end Verif.Factory
