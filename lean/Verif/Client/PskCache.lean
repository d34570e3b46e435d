import Verif.Client.PskSerialization

/-!
# PSK caches — model of `fizz/client/PskCache.h`, `fizz/client/SynchronizedLruPskCache.cpp`

The containers are modelled by their documented behaviour: `std::unordered_map` as an association
list with unique keys, `folly::EvictingCacheMap` as such a list in most-recently-used-first order.
Every method of the LRU cache holds the write lock from its first to its last access
(`SynchronizedLruPskCache.cpp:20,41,46`), so concurrent callers see some sequence of whole calls;
histories of calls are therefore lists.
-/

namespace Fizz.Client

variable {κ : Type}

/-- Contents of a map from identities to PSKs. -/
abbrev Entries (κ : Type) := List (Bytes × CachedPsk κ)

/-- `find`. -/
def Entries.find (m : Entries κ) (id : Bytes) : Option (CachedPsk κ) :=
  match m with
  | [] => none
  | (k, v) :: m => if k = id then some v else Entries.find m id

/-- `erase(key)`. -/
def Entries.erase (m : Entries κ) (id : Bytes) : Entries κ := m.filter fun e => e.1 ≠ id

/-- `BasicPskCache` (`fizz/client/PskCache.h:64-87`). -/
structure BasicPskCache (κ : Type) where
  cache : Entries κ := []

/-- `BasicPskCache::getPsk` (`fizz/client/PskCache.h:68-75`). -/
def BasicPskCache.getPsk (c : BasicPskCache κ) (id : Bytes) : Option (CachedPsk κ) :=
  c.cache.find id

/-- `BasicPskCache::putPsk` (`fizz/client/PskCache.h:77-79`): `cache_[identity] = psk`. -/
def BasicPskCache.putPsk (c : BasicPskCache κ) (id : Bytes) (p : CachedPsk κ) : BasicPskCache κ :=
  ⟨(id, p) :: c.cache.erase id⟩

/-- `BasicPskCache::removePsk` (`fizz/client/PskCache.h:81-83`). -/
def BasicPskCache.removePsk (c : BasicPskCache κ) (id : Bytes) : BasicPskCache κ :=
  ⟨c.cache.erase id⟩

/-- `folly::EvictingCacheMap` with `clearSize` 1; most recently used entry first. -/
structure Evicting (κ : Type) where
  maxSize : Nat
  entries : Entries κ := []

/-- `EvictingCacheMap::find`: a hit makes the entry the most recently used one. -/
def Evicting.find (m : Evicting κ) (id : Bytes) : Option (CachedPsk κ) × Evicting κ :=
  match m.entries.find id with
  | some v => (some v, { m with entries := (id, v) :: m.entries.erase id })
  | none => (none, m)

/-- `EvictingCacheMap::set`: replaces and promotes an existing entry; otherwise inserts in front and,
unless the map is unlimited (`maxSize` 0), drops the least recently used entry when the map has
become too large. -/
def Evicting.set (m : Evicting κ) (id : Bytes) (v : CachedPsk κ) : Evicting κ :=
  match m.entries.find id with
  | some _ => { m with entries := (id, v) :: m.entries.erase id }
  | none =>
    let entries := (id, v) :: m.entries
    if m.maxSize > 0 ∧ entries.length > m.maxSize then { m with entries := entries.dropLast }
    else { m with entries }

/-- `EvictingCacheMap::erase`. -/
def Evicting.erase (m : Evicting κ) (id : Bytes) : Evicting κ :=
  { m with entries := m.entries.erase id }

/-- `SynchronizedLruPskCache::getPsk` (`fizz/client/SynchronizedLruPskCache.cpp:18-36`); `now` is
the clock reading. -/
def lruGetPsk (m : Evicting κ) (id : Bytes) (now : Int) : Option (CachedPsk κ) × Evicting κ :=
  match m.find id with
  | (some p, m) => if now > p.ticketExpirationTime then (none, m.erase id) else (some p, m)
  | (none, m) => (none, m)

/-- `SynchronizedLruPskCache::putPsk` (`fizz/client/SynchronizedLruPskCache.cpp:38-43`). -/
def lruPutPsk (m : Evicting κ) (id : Bytes) (p : CachedPsk κ) : Evicting κ := m.set id p

/-- `SynchronizedLruPskCache::removePsk` (`fizz/client/SynchronizedLruPskCache.cpp:45-48`). -/
def lruRemovePsk (m : Evicting κ) (id : Bytes) : Evicting κ := m.erase id

/-- One call on a cache. -/
inductive CacheOp (κ : Type) where
  | get (id : Bytes) (now : Int)
  | put (id : Bytes) (p : CachedPsk κ)
  | remove (id : Bytes)

/-- Effect of a call on a `BasicPskCache`. -/
def BasicPskCache.step (c : BasicPskCache κ) : CacheOp κ → BasicPskCache κ
  | .get _ _ => c
  | .put id p => c.putPsk id p
  | .remove id => c.removePsk id

/-- A `BasicPskCache` after a history of calls. -/
def BasicPskCache.after (h : List (CacheOp κ)) : BasicPskCache κ := h.foldl BasicPskCache.step {}

/-- Effect of a call on a `SynchronizedLruPskCache`. -/
def lruStep (m : Evicting κ) : CacheOp κ → Evicting κ
  | .get id now => (lruGetPsk m id now).2
  | .put id p => lruPutPsk m id p
  | .remove id => lruRemovePsk m id

/-- A `SynchronizedLruPskCache` made with `mapMax`, after a history of calls. -/
def lruAfter (mapMax : Nat) (h : List (CacheOp κ)) : Evicting κ := h.foldl lruStep ⟨mapMax, []⟩

end Fizz.Client
