/-!
# Cache eviction: /repo/lsl/misc/file_cache.py, `FileCache._cache_management` and
`MemoryCache._cache_management`

Sizes and the limit are exact byte counts (the code compares sums of floats in MB); modification
times are naturals.
-/
namespace Verif.FileCache

structure Entry where
  name : Nat
  size : Nat
  mtime : Nat
  deriving DecidableEq, Repr

/-- `sum(sizes)`. -/
def totalSize (l : List Entry) : Nat := (l.map Entry.size).sum

/-- `min(mtimes)`. -/
def minTime : List Entry → Nat
  | [] => 0
  | [e] => e.mtime
  | e :: l => min e.mtime (minTime l)

/-- `mtimes.index(oldest)`. -/
def oldestIdx (l : List Entry) : Nat := (l.map Entry.mtime).idxOf (minTime l)

/-- One pass of the loop body, file_cache.py:76-84: the oldest entry is removed when `os.unlink`
succeeds (`unlinkOk`), else the lists stay as they are.  For `MemoryCache` (file_cache.py:408-414)
the removal always succeeds. -/
def passOnce (unlinkOk : Entry → Bool) (l : List Entry) : List Entry :=
  match l[oldestIdx l]? with
  | some e => if unlinkOk e then l.eraseIdx (oldestIdx l) else l
  | none => l

/-- The loop, file_cache.py:75-84; `none` when it has not ended after `fuel` passes. -/
def evictLoop (unlinkOk : Entry → Bool) (limit : Nat) : Nat → List Entry → Option (List Entry)
  | 0, _ => none
  | fuel + 1, l =>
    if limit < totalSize l ∧ 1 < l.length then evictLoop unlinkOk limit fuel (passOnce unlinkOk l)
    else some l

/-- `_cache_management`, file_cache.py:61-84: nothing is done without a positive limit. -/
def manage (unlinkOk : Entry → Bool) (limit : Nat) (fuel : Nat) (l : List Entry) :
    Option (List Entry) :=
  if 0 < limit then evictLoop unlinkOk limit fuel l else some l

end Verif.FileCache
