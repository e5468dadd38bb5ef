/-!
# Fetching data files: /repo/lsl/common/data_access.py

One file name; the cache entry is its content and modification time.  What the network and the machine do during a
fetch is a parameter.  The `_meta` file written beside it is left out: nothing reads it.
-/
namespace Verif.DataAccess

abbrev Content := List Nat

/-- What happens during one download (`download_file`, lines 71-157). -/
inductive Net where
  /-- The connection ended after `received` bytes on the wire; `written` went to the file.  The end is not told
  from a broken connection: `read` gives nothing in both cases (lines 127-130). -/
  | ended (received : Nat) (written : Content)
  /-- An `IOError`, timeout or HTTP error (lines 145-152). -/
  | ioError (written : Content)
  /-- Any other exception: no or bad `Content-Length` or `Last-Modified`, bad compressed data (lines 110-137). -/
  | raised (written : Content)
  /-- The process ends. -/
  | crash (written : Content)

/-- What happens while the local copy is made. -/
inductive Disk where
  | done
  | crash (k : Nat)

/-- The surroundings of one call. -/
structure Env where
  now : Int
  refreshAge : Int
  /-- The file of the installation and its time, if it exists. -/
  localFile : Option (Content × Int)
  disk : Disk
  net : Net
  backup : Net
  /-- Times from `check_url`, 0 for a failure. -/
  netTime : Int
  backupTime : Int

inductive Res where
  | ok
  | runtimeError
  | exception
  | crashed
  deriving DecidableEq

abbrev Cache := Option (Content × Int)

/-- A worker: the cache, and `some b` for a returned status or `none` with what ended the call. -/
abbrev Step := Cache × Except Res Bool

/-- `_local_copy_worker`, lines 189-225. -/
def localCopy (e : Env) : Step :=
  match e.localFile with
  | none => (none, .ok false)
  | some (d, _) =>
    match e.disk with
    | .crash k => (some (d.take k, e.now), .error .crashed)
    | .done => if d.length < 3 then (none, .ok false) else (some (d, e.now), .ok true)

/-- `_download_worker`, lines 237-269. -/
def download (e : Env) (n : Net) : Step :=
  match n with
  | .ended r w => if r < 3 then (none, .ok false) else (some (w, e.now), .ok true)
  | .ioError _ => (none, .ok false)
  | .raised w => (some (w, e.now), .error .exception)
  | .crash w => (some (w, e.now), .error .crashed)

/-- The first branch of `fetch_data_file`, lines 279-288. -/
def getNew (e : Env) : Cache × Res :=
  match localCopy e with
  | (c1, .error r) => (c1, r)
  | (c1, .ok true) => (c1, .ok)
  | (_, .ok false) =>
    match download e e.net with
    | (c2, .error r) => (c2, r)
    | (c2, .ok true) => (c2, .ok)
    | (_, .ok false) =>
      match download e e.backup with
      | (c3, .error r) => (c3, r)
      | (c3, .ok true) => (c3, .ok)
      | (c3, .ok false) => (c3, .runtimeError)

/-- Is there something newer, lines 292-303. -/
def stale (e : Env) (t : Int) : Bool :=
  decide (e.refreshAge * 86400 < e.now - t) &&
    decide (t < max ((e.localFile.map Prod.snd).getD 0) (if e.netTime = 0 then e.backupTime else e.netTime))

/-- `fetch_data_file`, lines 271-305. -/
def fetch (e : Env) (c : Cache) : Cache × Res :=
  match c with
  | none => getNew e
  | some (d, t) => if stale e t then getNew e else (some (d, t), .ok)

/-- Reading what a fetch left: a file that is not there raises an exception, line 317. -/
def reading : Cache × Res → Cache × Except Res Content
  | (some (d, t), .ok) => (some (d, t), .ok d)
  | (none, .ok) => (none, .error .exception)
  | (c', r) => (c', .error r)

/-- `open`, lines 307-318: what the caller reads, or how the call ends. -/
def «open» (e : Env) (c : Cache) : Cache × Except Res Content := reading (fetch e c)

/-- A sequence of calls. -/
def run (c : Cache) : List Env → Cache × List (Except Res Content)
  | [] => (c, [])
  | e :: es =>
    let r := «open» e c
    let s := run r.1 es
    (s.1, r.2 :: s.2)

end Verif.DataAccess
