import Verif.Session.AppLog

/-!
# Model of a new repository for the log

`TaskAdapter.set_repo` and `_delete_repo` (rocketry/core/log/adapter.py:81-91), over the loggers of
`Verif/Session/Loggers.lean`.  Simplified as there: a handler is the repository it writes to, or `none` if it has no
attribute `repo`; all levels pass.
-/

namespace Rocketry.Session

/-- `_delete_repo`, adapter.py:86-91: the handlers without a repository stay. -/
def LogWorld.deleteRepo (w : LogWorld) (n : LogName) : LogWorld := w.handle n (fun hs => hs.filter (fun h => !h.isSome))

/-- `task.logger.set_repo(repo)` of a task whose logger has the name `n`, adapter.py:81-84.  The handlers belong to the
logger, not to the adapter of the task. -/
def LogWorld.setRepo (w : LogWorld) (n : LogName) (k : Nat) : LogWorld :=
  (w.deleteRepo n).handle n (fun hs => some k :: hs)

/-- What goes on with the log: a record is logged with the logger of a name, or such a logger gets a new repository. -/
inductive RepoOp where
  | log (n : LogName) (r : LRec)
  | setRepo (n : LogName) (k : Nat)
  deriving DecidableEq, Repr

def LogWorld.repoStep (w : LogWorld) : RepoOp → LogWorld
  | .log n r => w.log n r
  | .setRepo n k => w.setRepo n k

def LogWorld.repoSteps (w : LogWorld) (l : List RepoOp) : LogWorld := l.foldl LogWorld.repoStep w

end Rocketry.Session
