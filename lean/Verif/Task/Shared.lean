import Verif.Task.Situation

/-!
# Model of several sessions in one process

Two things are shared by all sessions of a process.  The option `force_status_from_logs` is read from the default session
(`self.session` of a condition is the class attribute `RedBase.session`, rocketry/_base.py:6-8, set by
`Session.set_as_default`, rocketry/session.py:559-568, which an application calls when it is started,
rocketry/application.py:60, 66): rocketry/conditions/task/utils.py:66, rocketry/conditions/task/task.py:170.  The logger of the
tasks is found by its name (`logging.getLogger(task_logger_basename)`, by default the same for all sessions), so the records of all
sessions with that name are in one log, in which a task finds its own by the name of the task (rocketry/core/log/adapter.py:53-59).
-/

namespace Rocketry

/-- The situation of a session, as its conditions see it in a process: the option is the one of the default session and the log
is the one of all sessions. -/
def Sit.beside (v : Sit) (defaultFromLogs : Bool) (log : List Record) : Sit := { v with fromLogs := defaultFromLogs, repo := log }

end Rocketry
