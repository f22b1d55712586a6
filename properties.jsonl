{"id": "C01", "title": "Job ids are fresh and increasing", "statement": "Every successful `ketchup submit` adds exactly one queue entry, in status `q`, whose id is larger than every id ever handed out before; no other queue entry is touched.", "quantifier": "for every history of operations by any number of clients, managers and job processes, in any interleaving, and every submitted payload", "why_tests_cant": "A test submits a handful of jobs in one order; uniqueness must survive every history, including concurrent submitters and rows written by other actors.", "anchors": ["src/tomato/ketchup/__init__.py:submit", "src/tomato/daemon/jobdb.py:insert_job", "src/tomato/daemon/db.py:setup_db"]}
{"id": "C02", "title": "Submit reports the job it created", "statement": "The job object and the jobid in the reply of a successful `ketchup submit` are those of the job that this very call inserted, with the payload that was submitted.", "quantifier": "for every queue content and every submission time stamp", "why_tests_cant": "Needs two submissions carrying the same time stamp; tests never produce one.", "anchors": ["src/tomato/ketchup/__init__.py:submit", "src/tomato/daemon/jobdb.py:insert_job"]}
{"id": "C03", "title": "Submission records are immutable and permanent", "statement": "Once submitted, a job's id, payload, job name and submission time never change and the job never disappears from the queue, whatever users, managers and job processes do afterwards.", "quantifier": "for every reachable state of the concurrent system: any interleaving of any commands, manager passes, job processes and crashes at any point", "why_tests_cant": "Quantifies over all schedules and crash points.", "anchors": ["src/tomato/daemon/jobdb.py", "src/tomato/daemon/job.py", "src/tomato/daemon/pip.py", "src/tomato/ketchup/__init__.py"]}
{"id": "C04", "title": "Status query is exact", "statement": "`ketchup status` with ids returns exactly the existing jobs among those ids, each once, in id order (all jobs when no id is given), fails exactly when there are none, changes nothing, and its message lists every returned job in exactly one status group.", "quantifier": "for every queue content and every id list (duplicates, unknown ids, any order)", "why_tests_cant": "Tests query one or two ids; the partition claim is over all queues and lists.", "anchors": ["src/tomato/ketchup/__init__.py:status", "src/tomato/daemon/jobdb.py:get_jobs_where"]}
{"id": "C05", "title": "Search is substring search", "statement": "`ketchup search s` returns exactly the jobs whose name contains `s` (ASCII case-insensitively).", "quantifier": "for every search string and every queue content", "why_tests_cant": "The search text is spliced into a SQL LIKE pattern; only reasoning over all strings shows when pattern characters break the meaning.", "anchors": ["src/tomato/ketchup/__init__.py:search"]}
{"id": "C06", "title": "Submit validates repositories before queueing", "statement": "A submission that names an output repository that is not configured is refused and leaves the queue untouched; every accepted submission only names configured repositories or `default`.", "quantifier": "for every repository list, every settings content and every queue", "why_tests_cant": "Quantifies over all lists and configurations.", "anchors": ["src/tomato/ketchup/__init__.py:submit"]}
{"id": "C07", "title": "Cancelling a list of jobs cancels each of them", "statement": "After a successful `ketchup cancel` of a list of jobs, every listed job that was queued is `cd`, every listed job that was running is `rd`, and the reply lists exactly the jobs that were cancelled by the call.", "quantifier": "for every list of existing job ids and every queue content", "why_tests_cant": "Tests only ever cancel one job at a time.", "anchors": ["src/tomato/ketchup/__init__.py:cancel"]}
{"id": "C08", "title": "Cancel touches only what was asked", "statement": "`ketchup cancel` never changes a job that is not in the list, changes nothing but the status column, and changes nothing at all when any listed id is unknown.", "quantifier": "for every id list and every queue content", "why_tests_cant": "Frame condition over all queues.", "anchors": ["src/tomato/ketchup/__init__.py:cancel"]}
{"id": "C09", "title": "Cancel never alters a finished job", "statement": "A job in status `c`, `cd` or `ce` keeps its status when `ketchup cancel` is called with any list of ids.", "quantifier": "for every id list and every queue content", "why_tests_cant": "Needs mixed lists; tests cancel single jobs.", "anchors": ["src/tomato/ketchup/__init__.py:cancel"]}
{"id": "C10", "title": "A cancelled queued job is never started", "statement": "If `ketchup cancel` succeeds on a job that is waiting in the queue (status `q` or `qw`), that job is never launched and its status never leaves `cd` afterwards.", "quantifier": "for every interleaving of the cancel command with the job manager, the pipeline manager and job processes", "why_tests_cant": "Depends on the schedule: the race windows last milliseconds.", "anchors": ["src/tomato/ketchup/__init__.py:cancel", "src/tomato/daemon/job.py:check_queued", "src/tomato/daemon/job.py:action_queued", "src/tomato/daemon/job.py:tomato_job"]}
{"id": "C11", "title": "Snapshot refuses queued jobs and serves all others", "statement": "`ketchup snapshot` fails without writing any file if any requested job is unknown or still queued, and otherwise writes a snapshot for every requested job.", "quantifier": "for every id list and every queue content", "why_tests_cant": "Covers all status combinations, including jobs cancelled before they were started.", "anchors": ["src/tomato/ketchup/__init__.py:snapshot", "src/tomato/daemon/io.py:merge_netcdfs"]}
{"id": "C12", "title": "Load never overwrites a sample", "statement": "`tomato pipeline load` succeeds only on a known pipeline with no sample; it then holds exactly the given sample, is not ready, and every other pipeline is untouched. A refused load changes nothing.", "quantifier": "for every configuration, pipeline table, pipeline name and sample name", "why_tests_cant": "Quantifies over all tables and names.", "anchors": ["src/tomato/tomato/__init__.py:pipeline_load"]}
{"id": "C13", "title": "Eject never removes the sample of a running job", "statement": "`tomato pipeline eject` on a pipeline with an assigned job fails and changes nothing; otherwise afterwards the pipeline is empty; and a sample present while a job is assigned stays until the job is gone.", "quantifier": "for every pipeline table, and for every interleaving with the job manager", "why_tests_cant": "The check and the write are two separate database transactions; the property is about every interleaving.", "anchors": ["src/tomato/tomato/__init__.py:pipeline_eject", "src/tomato/daemon/job.py:action_queued"]}
{"id": "C14", "title": "Ready is idempotent and refused while a job is assigned", "statement": "`tomato pipeline ready` never changes the sample or the job, marks only the named pipeline, is idempotent, and fails without change when a job is assigned to a pipeline that is not ready.", "quantifier": "for every pipeline table and pipeline name", "why_tests_cant": "Quantifies over all tables.", "anchors": ["src/tomato/tomato/__init__.py:pipeline_ready"]}
{"id": "C15", "title": "Occupied pipelines hold a sample and are not ready", "statement": "In every state reached by complete (non-overlapping) executions of the commands and manager passes, a pipeline with an assigned job has a sample loaded and is not marked ready.", "quantifier": "for every history of commands, manager passes and job completions starting from a fresh installation", "why_tests_cant": "Invariant over unbounded histories.", "anchors": ["src/tomato/tomato/__init__.py:pipeline_load", "src/tomato/tomato/__init__.py:pipeline_eject", "src/tomato/tomato/__init__.py:pipeline_ready", "src/tomato/daemon/job.py:action_queued", "src/tomato/daemon/pip.py:manager", "src/tomato/daemon/job.py:tomato_job"]}
{"id": "C16", "title": "Jobs only start on matching pipelines", "statement": "When the job manager assigns a job to a pipeline, the pipeline had been marked ready, held the job's sample, had no job, and is among the pipelines whose roles and capabilities match every task of the job's method.", "quantifier": "for every queue, pipeline table, configuration, driver replies, and every interleaving with other actors", "why_tests_cant": "All combinations of capabilities, roles, samples and readiness, and all schedules.", "anchors": ["src/tomato/daemon/job.py:find_matching_pipelines", "src/tomato/daemon/job.py:method_validate", "src/tomato/daemon/job.py:check_queued", "src/tomato/daemon/job.py:action_queued"]}
{"id": "C17", "title": "No pipeline is assigned to two jobs", "statement": "Whenever the job manager assigns a job to a pipeline, that pipeline has no job assigned at that very moment.", "quantifier": "for every interleaving of one job manager with any number of clients, the pipeline manager, job processes, and crash/restart of the daemon at any point", "why_tests_cant": "The availability table is cached while other processes write to it; only a proof over all schedules settles it.", "anchors": ["src/tomato/daemon/job.py:action_queued", "src/tomato/daemon/pipdb.py", "src/tomato/daemon/pip.py:manager"]}
{"id": "C18", "title": "A job is launched at most once", "statement": "For every job id at most one `tomato-job` process is ever launched.", "quantifier": "for every interleaving and every crash/restart of the daemon at any point, as long as the job storage folder is kept", "why_tests_cant": "Crash points between the reservation, the launch and the bookkeeping cannot be enumerated by tests.", "anchors": ["src/tomato/daemon/job.py:action_queued"]}
{"id": "C19", "title": "First come, first served per pipeline", "statement": "If two queued jobs could both start on the pipelines assigned in one manager pass, the job with the lower id is served first: a job is left without pipeline only if every pipeline suitable for it was taken by jobs with a lower id or was not available.", "quantifier": "for every queue, every matching relation and every availability table", "why_tests_cant": "Quantifies over all matchings.", "anchors": ["src/tomato/daemon/job.py:action_queued"]}
{"id": "C20", "title": "Pipelines of live jobs are never reset; of dead jobs always", "statement": "The pipeline manager resets a pipeline exactly when its job has ended (process gone or zombie, or terminated), or was launched but has not connected within 10 seconds; it never touches the pipeline of a live or not-yet-connected job, and a reset keeps the sample and clears the ready flag.", "quantifier": "for every job and pipeline table and every process table", "why_tests_cant": "All combinations of pid / time stamps / process states, including time spans tests cannot wait for.", "anchors": ["src/tomato/daemon/pip.py:manager"]}
{"id": "C21", "title": "A component serves at most one job", "statement": "No hardware component is part of two pipelines that have different jobs assigned at the same time.", "quantifier": "for every configuration file and every reachable state", "why_tests_cant": "Quantifies over all configurations.", "anchors": ["src/tomato/models.py:DeviceFile.populate_attrs", "src/tomato/daemon/job.py:action_queued"]}
{"id": "C22", "title": "Finished jobs stay finished", "statement": "Once a job has a final status (`c`, `ce`, `cd`) its status never changes again.", "quantifier": "for every interleaving of users, managers and job processes", "why_tests_cant": "Race windows; all schedules.", "anchors": ["src/tomato/daemon/job.py:manage_running", "src/tomato/daemon/job.py:tomato_job", "src/tomato/daemon/job.py:check_queued", "src/tomato/ketchup/__init__.py:cancel"]}
{"id": "C23", "title": "Running jobs are supervised correctly", "statement": "One supervision pass turns every job with a dead process and status `r` into `ce`, every job with status `rd` into `cd` (both with the process id cleared and completion time set), and leaves every other job unchanged.", "quantifier": "for every queue and every process table", "why_tests_cant": "All combinations of status and process state for all jobs of the queue at once.", "anchors": ["src/tomato/daemon/job.py:manage_running"]}
{"id": "C24", "title": "Cancelling a running job ends its process", "statement": "After a job in status `rd` has been processed by the job manager (status `cd`), its process does not execute any further tasks and does not change the job or its pipeline any more.", "quantifier": "for every process tree and every schedule", "why_tests_cant": "Depends on the process tree and the schedule.", "anchors": ["src/tomato/daemon/job.py:kill_tomato_job", "src/tomato/daemon/job.py:manage_running", "src/tomato/daemon/job.py:tomato_job"]}
{"id": "C25", "title": "A job only releases its own pipeline", "statement": "When a job process ends it clears the pipeline's job only if that pipeline is still assigned to this job.", "quantifier": "for every reachable state of the concurrent system", "why_tests_cant": "Needs a specific multi-process schedule.", "anchors": ["src/tomato/daemon/job.py:tomato_job", "src/tomato/daemon/pip.py:manager"]}
{"id": "C26", "title": "Stop is refused while jobs are running", "statement": "`tomato stop` succeeds and puts the daemon into stopping mode exactly when no pipeline has a job assigned; a refused stop changes nothing.", "quantifier": "for every pipeline table and daemon state", "why_tests_cant": "Quantifies over all tables.", "anchors": ["src/tomato/daemon/cmd.py:stop"]}
{"id": "C27", "title": "Reload never touches what running jobs use", "statement": "After a successful reload every pipeline with an assigned job still exists with the same roles and components, each such component has the same driver, address and channel, and its driver has the same settings. A refused reload changes neither the configuration nor any table.", "quantifier": "for every old and new configuration and every pipeline table", "why_tests_cant": "Quantifies over pairs of configurations.", "anchors": ["src/tomato/daemon/cmd.py:reload"]}
{"id": "C28", "title": "Reloaded configuration is usable", "statement": "After a successful reload the daemon uses exactly the new configuration and every configured pipeline and driver can be operated on (it has an entry in the state tables).", "quantifier": "for every old and new configuration", "why_tests_cant": "Quantifies over pairs of configurations; the tests only look at the number of entries in the reply.", "anchors": ["src/tomato/daemon/cmd.py:reload", "src/tomato/tomato/__init__.py:pipeline_load"]}
{"id": "C29", "title": "Every request gets its own answer", "statement": "The daemon answers every request it receives with the result of that request; an unknown or malformed command yields a failure reply and the daemon keeps serving.", "quantifier": "for every sequence of messages", "why_tests_cant": "Unbounded sequences of arbitrary messages; stale replies only show in sequences.", "anchors": ["src/tomato/daemon/__init__.py:tomato_daemon", "src/tomato/daemon/cmd.py"]}
{"id": "C30", "title": "State survives a restart", "statement": "Starting the daemon on an existing database keeps the queue, and the state of every pipeline and driver already known, and adds an empty, not-ready entry for exactly the configured pipelines and drivers that were missing.", "quantifier": "for every database content and every configuration", "why_tests_cant": "Quantifies over all database contents.", "anchors": ["src/tomato/daemon/cmd.py:reload", "src/tomato/daemon/db.py:setup_db"]}
{"id": "C31", "title": "Databases of older versions are upgraded without loss", "statement": "Opening a database written by an older release upgrades it to the current layout and keeps every job; opening a current one changes nothing; opening a missing one creates empty tables.", "quantifier": "for every database content and version", "why_tests_cant": "Quantifies over contents and versions.", "anchors": ["src/tomato/daemon/db.py:setup_db"]}
{"id": "C32", "title": "Parsed configurations are closed", "statement": "In every accepted device file, each pipeline role refers to a known component, each component refers to a known device (same driver and address, and one of its channels) and to a known driver.", "quantifier": "for every device file", "why_tests_cant": "Quantifies over all files.", "anchors": ["src/tomato/models.py:DeviceFile.populate_attrs"]}
{"id": "C33", "title": "Component names identify hardware channels", "statement": "Two components of a configuration that differ in driver, address or channel have different names, so none silently replaces the other.", "quantifier": "for every device file", "why_tests_cant": "Injectivity over all strings.", "anchors": ["src/tomato/models.py:DeviceFile.populate_attrs"]}
{"id": "C34", "title": "Wildcard pipelines expand to one pipeline per channel", "statement": "A pipeline whose name ends in `*` produces, for every channel of its device and for nothing else, a pipeline with the channel in place of the star and a single role bound to exactly this channel.", "quantifier": "for every device, channel list and pipeline name", "why_tests_cant": "Quantifies over all lists and names.", "anchors": ["src/tomato/models.py:DeviceFile.populate_attrs"]}
{"id": "C35", "title": "Inconsistent configurations are rejected", "statement": "A device file in which some pipeline names an unknown device, a channel the device does not have, or a wildcard with several devices or a channel other than `each` is never accepted; all others are.", "quantifier": "for every device file", "why_tests_cant": "Completeness and soundness over all files.", "anchors": ["src/tomato/models.py:DeviceFile.populate_attrs"]}
{"id": "C36", "title": "Unused components are dropped", "statement": "Every component of an accepted configuration belongs to at least one pipeline.", "quantifier": "for every device file", "why_tests_cant": "Quantifies over all files (duplicate names and roles included).", "anchors": ["src/tomato/models.py:DeviceFile.populate_attrs"]}
{"id": "C37", "title": "Method is split by role without loss", "statement": "The job process hands every component of the pipeline exactly the tasks of the method with its role, in method order, and no task is handed out twice or dropped when every role of the method exists in the pipeline.", "quantifier": "for every method and every pipeline", "why_tests_cant": "Quantifies over all methods.", "anchors": ["src/tomato/daemon/job.py:job_main_loop"]}
{"id": "C38", "title": "Tasks of a component are sent in order", "statement": "Each component receives its tasks in method order, without gaps, and a task is sent only after the previous task of that component was seen to end and its final data was fetched.", "quantifier": "for every behaviour of the driver, every timing, and every point at which the job process may die", "why_tests_cant": "Arbitrary driver behaviour and crash points.", "anchors": ["src/tomato/daemon/job.py:job_thread"]}
{"id": "C39", "title": "A job reported complete has executed all tasks", "statement": "If a job ends with status `c`, every task of its method was sent to its component.", "quantifier": "for every method and every behaviour of the drivers", "why_tests_cant": "Tests use at most two tasks per component.", "anchors": ["src/tomato/daemon/job.py:job_thread", "src/tomato/daemon/job.py:job_main_loop", "src/tomato/daemon/job.py:tomato_job"]}
{"id": "C40", "title": "start_with_task_name delays the start", "statement": "A task with `start_with_task_name` is not sent to its component before some task with that name has started on a component of the job.", "quantifier": "for every method, every timing of the job threads and the supervising loop", "why_tests_cant": "Ordering over all schedules.", "anchors": ["src/tomato/daemon/job.py:job_thread", "src/tomato/daemon/job.py:job_main_loop"]}
{"id": "C41", "title": "stop_with_task_name stops the task", "statement": "A running task with `stop_with_task_name` is told to stop once the named task has started, and is never told to stop before.", "quantifier": "for every timing and driver behaviour", "why_tests_cant": "Ordering over all schedules.", "anchors": ["src/tomato/daemon/job.py:job_thread"]}
{"id": "C42", "title": "A triggered task does start", "statement": "If a task that others wait for (`start_with_task_name`) has been started, the waiting task is eventually released.", "quantifier": "for every timing of job threads and of the supervising loop", "why_tests_cant": "Liveness under sampling: needs a schedule where the trigger lives between two samples.", "anchors": ["src/tomato/daemon/job.py:job_main_loop", "src/tomato/daemon/job.py:job_thread"]}
{"id": "C43", "title": "Fetched data is stored completely and in order", "statement": "The stored data of a component is the concatenation of all data it delivered, in order of delivery; storing new data never loses data stored before, even if the process dies at any point.", "quantifier": "for every sequence of deliveries and every crash point", "why_tests_cant": "Crash points within a write.", "anchors": ["src/tomato/daemon/io.py:data_to_pickle", "src/tomato/daemon/job.py:job_thread"]}
{"id": "C44", "title": "Components are reset at the end of every job", "statement": "Each component used by a job is reset as the last command the job sends to it, whatever way the job ends.", "quantifier": "for every method and every driver behaviour", "why_tests_cant": "All failure paths.", "anchors": ["src/tomato/daemon/job.py:job_thread"]}
{"id": "C45", "title": "Component failures surface as job errors", "statement": "If communication with a component fails or a task does not start within the allowed time, the job ends as `ce`; a job ends as `ce` only for this reason.", "quantifier": "for every number of components and every failure pattern", "why_tests_cant": "All failure patterns.", "anchors": ["src/tomato/daemon/job.py:job_thread", "src/tomato/daemon/job.py:job_main_loop", "src/tomato/daemon/job.py:tomato_job"]}
{"id": "C46", "title": "Requests are retried a bounded number of times", "statement": "A request with n>=1 retries sends the message at most n times and always returns; it reports failure (with a closed connection) exactly when none of the attempts was answered in time, and otherwise the answer to its last attempt.", "quantifier": "for every number of retries and every pattern of timeouts", "why_tests_cant": "All timeout patterns.", "anchors": ["src/tomato/daemon/lpp.py:comm"]}
{"id": "C47", "title": "A request is executed exactly once", "statement": "A request that is reported as answered was executed exactly once by the driver; in particular fetching data never loses data and starting a task never enqueues it twice.", "quantifier": "for every pattern of delays and losses", "why_tests_cant": "All delay patterns.", "anchors": ["src/tomato/daemon/lpp.py:comm", "src/tomato/driverinterface_2_1/__init__.py:ModelInterface.task_data", "src/tomato/driverinterface_2_1/__init__.py:ModelInterface.task_start"]}
{"id": "C48", "title": "Task validation is exact", "statement": "A driver accepts a task exactly when every parameter names a writable attribute and carries a value that is not None, is convertible to the attribute's type, is among the options, has the right units, and lies within the limits.", "quantifier": "for every attribute table and every parameter set", "why_tests_cant": "Quantifies over all attribute tables and values.", "anchors": ["src/tomato/driverinterface_2_1/__init__.py:ModelInterface.task_validate"]}
{"id": "C49", "title": "Accepted tasks can be executed", "statement": "If a driver accepts a task, setting the parameters at the beginning of the task raises no validation error, and sets exactly the converted values.", "quantifier": "for every attribute table and every parameter set", "why_tests_cant": "Two separate implementations of the same checks must agree on all inputs.", "anchors": ["src/tomato/driverinterface_2_1/__init__.py:ModelInterface.task_validate", "src/tomato/driverinterface_2_1/decorators.py:coerce_val", "src/tomato/driverinterface_2_1/__init__.py:ModelDevice.prepare_task"]}
{"id": "C50", "title": "Values outside the limits are never applied", "statement": "Every value applied to an attribute with limits lies between the minimum and the maximum.", "quantifier": "for every value, including not-a-number", "why_tests_cant": "All values, including NaN.", "anchors": ["src/tomato/driverinterface_2_1/decorators.py:coerce_val", "src/tomato/driverinterface_2_1/__init__.py:ModelInterface.cmp_set_attr"]}
{"id": "C51", "title": "One task at a time, first in first out", "statement": "A component executes at most one task at any time; tasks are executed in the order in which they were accepted, each at most once, and no task is lost except by a reset.", "quantifier": "for every interleaving of the command thread and the worker thread", "why_tests_cant": "All interleavings.", "anchors": ["src/tomato/driverinterface_2_1/__init__.py:ModelDevice.task_runner", "src/tomato/driverinterface_2_1/__init__.py:ModelInterface.task_start"]}
{"id": "C52", "title": "Measured data is delivered exactly once", "statement": "Every data point measured during a task is delivered by the data-fetching commands exactly once and in order, or is still in the cache; unless the component is reset or the next task begins before it was fetched.", "quantifier": "for every interleaving of the command thread and the worker thread", "why_tests_cant": "All interleavings.", "anchors": ["src/tomato/driverinterface_2_1/__init__.py:ModelDevice.do_task", "src/tomato/driverinterface_2_1/__init__.py:ModelDevice.get_data", "src/tomato/driverinterface_2_1/__init__.py:ModelDevice.task_runner"]}
{"id": "C53", "title": "One-shot measurements do not disturb tasks", "statement": "A one-shot measurement is refused while a task is running or queued, is never executed concurrently with a task, and never changes the data collected for a task.", "quantifier": "for every interleaving", "why_tests_cant": "All interleavings.", "anchors": ["src/tomato/driverinterface_2_1/__init__.py:ModelInterface.cmp_measure", "src/tomato/driverinterface_2_1/__init__.py:ModelDevice.task_runner"]}
{"id": "C54", "title": "Stopping a task stops it", "statement": "After a successful `task_stop` the component performs at most the measurement in progress for that task and then ends the task.", "quantifier": "for every interleaving and both driver interface versions", "why_tests_cant": "All interleavings.", "anchors": ["src/tomato/driverinterface_2_1/__init__.py:ModelDevice.stop_task", "src/tomato/driverinterface_2_0/__init__.py:ModelDevice.stop_task"]}
{"id": "C55", "title": "Commands to unregistered components are answered", "statement": "Every component command addressed to a component that is not registered returns a failure reply, runs no device code and changes nothing.", "quantifier": "for every device map, every command and every way of addressing the component, for both interface versions", "why_tests_cant": "All commands and addressing forms.", "anchors": ["src/tomato/driverinterface_2_1/decorators.py:in_devmap", "src/tomato/driverinterface_2_0/__init__.py:in_devmap"]}
{"id": "C56", "title": "Bad commands do not bring a driver down", "statement": "A driver process answers every message, and a message without command, with an unknown command, or whose execution is rejected leaves the driver running.", "quantifier": "for every sequence of messages", "why_tests_cant": "Unbounded message sequences.", "anchors": ["src/tomato/daemon/driver.py:tomato_driver"]}
{"id": "C57", "title": "Automatic registration is bounded", "statement": "A component that fails to register is retried automatically at most three times in total, a registered component is never registered again, and the driver reports success exactly when every component it tried to register is registered.", "quantifier": "for every sequence of automatic and manual registrations and every behaviour of the device", "why_tests_cant": "Unbounded sequences of failures.", "anchors": ["src/tomato/daemon/driver.py:tomato_driver_bootstrap", "src/tomato/driverinterface_2_1/__init__.py:ModelInterface.cmp_register"]}
{"id": "C58", "title": "Every configured component gets registered", "statement": "As long as a configured component of a running driver is unregistered and its retries are not exhausted, the driver manager keeps asking the driver to register it.", "quantifier": "for every configuration and every registration outcome", "why_tests_cant": "Needs partial registration outcomes.", "anchors": ["src/tomato/daemon/driver.py:manager", "src/tomato/daemon/driver.py:tomato_driver_bootstrap"]}
{"id": "C59", "title": "Driver spawning is throttled", "statement": "A driver that does not come up is spawned at most three times, with more than five seconds between attempts.", "quantifier": "for every sequence of manager passes, time stamps and driver behaviours", "why_tests_cant": "Unbounded histories.", "anchors": ["src/tomato/daemon/driver.py:manager"]}
{"id": "C60", "title": "Driver bookkeeping is consistent and removal works", "statement": "In every reachable state a driver has a process id on record exactly when it has a port on record; a driver removed from the configuration is stopped and its record deleted without disturbing the other drivers.", "quantifier": "for every history of driver manager passes and driver start-ups", "why_tests_cant": "Unbounded histories.", "anchors": ["src/tomato/daemon/driver.py:manager", "src/tomato/daemon/drvdb.py:del_drv", "src/tomato/daemon/driver.py:tomato_driver"]}
{"id": "C61", "title": "Idle measurements respect the interval", "statement": "Two rounds of idle measurements of a driver are at least the configured interval apart, and none happens when no interval is configured.", "quantifier": "for every sequence of loop iterations and time stamps", "why_tests_cant": "Unbounded sequences.", "anchors": ["src/tomato/daemon/driver.py:perform_idle_measurements"]}
{"id": "C62", "title": "passata does not disturb running components", "statement": "`passata set-attr` and `passata reset` send the modifying command only if the component reported not running, or force is given; commands for unknown components are never sent anywhere.", "quantifier": "for every configuration, arguments and driver replies", "why_tests_cant": "All reply combinations.", "anchors": ["src/tomato/passata/__init__.py:set_attr", "src/tomato/passata/__init__.py:reset", "src/tomato/passata/__init__.py:_running_or_force", "src/tomato/passata/__init__.py:_name_to_cmp"]}
{"id": "C63", "title": "Reading attributes is all or nothing", "statement": "`passata get` returns either the values of exactly all requested attributes, or the first failure.", "quantifier": "for every attribute list and all driver replies", "why_tests_cant": "All lists.", "anchors": ["src/tomato/passata/__init__.py:get_attrs"]}
{"id": "C64", "title": "init never destroys an existing configuration", "statement": "`tomato init` never changes an existing settings, device or database file, creates the missing ones, and is idempotent.", "quantifier": "for every state of the file system", "why_tests_cant": "Quantifies over file system states.", "anchors": ["src/tomato/tomato/__init__.py:init"]}
{"id": "C65", "title": "Status tables are complete and aligned", "statement": "The table printed by `tomato status` has one line per object, all lines contain all columns and every column starts at the same position in every line; an empty table is reported as such.", "quantifier": "for every set of objects and columns", "why_tests_cant": "All inputs.", "anchors": ["src/tomato/tomato/__init__.py:make_padded_lines", "src/tomato/tomato/__init__.py:format_msg"]}
{"id": "C66", "title": "Log level is always valid", "statement": "Every combination of -v and -q flags yields one of the five log levels, monotonically.", "quantifier": "for every number of -v and -q flags", "why_tests_cant": "All counts.", "anchors": ["src/tomato/__init__.py:parse_args"]}
{"id": "C67", "title": "Jobs do not share result files", "statement": "Two different jobs never write to the same folder of intermediate data; and never to the same result file unless the user chose the same path and prefix.", "quantifier": "for every pair of jobs", "why_tests_cant": "Injectivity of names.", "anchors": ["src/tomato/daemon/job.py:tomato_job", "src/tomato/daemon/job.py:action_queued"]}
{"id": "C68", "title": "Merged results contain all stored data", "statement": "The result file of a job has one group per component role for which data was stored, containing exactly the stored data, and nothing else.", "quantifier": "for every content of the job folder", "why_tests_cant": "All folder contents.", "anchors": ["src/tomato/daemon/io.py:merge_netcdfs", "src/tomato/daemon/io.py:data_to_pickle"]}
{"id": "C69", "title": "Payloads are upgraded to at most the latest known version", "statement": "A submitted payload is upgraded step by step and is queued in the highest version not above the latest supported one; the upgrade always ends.", "quantifier": "for every chain of payload versions", "why_tests_cant": "All chains.", "anchors": ["src/tomato/ketchup/__init__.py:submit"]}
{"id": "C70", "title": "The daemon keeps scheduling", "statement": "No user action and no unlucky timing permanently disables the job manager: as long as the daemon runs, a queued job with a free, ready, matching pipeline is eventually launched.", "quantifier": "for every reachable state and interleaving", "why_tests_cant": "All schedules and crash points.", "anchors": ["src/tomato/daemon/job.py:manager", "src/tomato/daemon/job.py:action_queued", "src/tomato/daemon/job.py:manage_running"]}
{"id": "C71", "title": "Every measured data point reaches the job's file exactly once", "statement": "When a component has carried out the tasks of a job, the file of the job for its role contains exactly the data points measured for these tasks, task after task, in the order of measurement, none lost, repeated, invented or mixed up, whatever the timing of worker, driver and job thread.", "quantifier": "for all task lists and all interleavings of the job thread, the driver's command thread, the worker thread of the component and one-shot measurements", "why_tests_cant": "Three threads in two processes; the schedules are unbounded.", "anchors": ["src/tomato/daemon/job.py:job_thread", "src/tomato/daemon/driver.py:tomato_driver", "src/tomato/driverinterface_2_1/__init__.py:ModelDevice", "src/tomato/daemon/io.py:data_to_pickle"]}
{"id": "C72", "title": "A job's file contains only its own data", "statement": "At any moment the file of a job contains only data points that were measured for tasks of this job, in the order of measurement and none of them twice, even if tasks are stopped, requests are lost or the job crashes.", "quantifier": "for all task lists and all interleavings of the job thread, the driver's command thread, the worker thread of the component and one-shot measurements", "why_tests_cant": "Three threads in two processes; the schedules are unbounded.", "anchors": ["src/tomato/daemon/job.py:job_thread", "src/tomato/driverinterface_2_1/__init__.py:ModelDevice", "src/tomato/daemon/io.py:data_to_pickle"]}
{"id": "C73", "title": "Several daemons can share a queue", "statement": "If several daemons on different ports serve the same database, every job is still launched at most once, no pipeline gets a second job while it has one, and no job manager is ended by the actions of another.", "quantifier": "for all numbers of daemons and all interleavings of their job managers, the commands, the job processes and crashes", "why_tests_cant": "The races between managers need exact interleavings of database operations; their number is unbounded.", "anchors": ["docs/source/usage.rst:26", "src/tomato/daemon/job.py:action_queued", "src/tomato/daemon/job.py:job_main_loop"]}
{"id": "C74", "title": "A daemon that agreed to stop exits, and only then", "statement": "After the daemon answered 'stop' with success, its process ends, whatever messages arrive in the meantime; it exits in no other case, and not before all manager threads have ended.", "quantifier": "for all databases, configurations, messages and fair schedules of the main loop and the three manager threads", "why_tests_cant": "Termination under all fair schedules is a liveness property over infinite executions.", "anchors": ["src/tomato/daemon/__init__.py:tomato_daemon", "src/tomato/daemon/driver.py:manager", "src/tomato/daemon/job.py:manager", "src/tomato/daemon/pip.py:manager"]}
{"id": "C75", "title": "Stopping the daemon stops its drivers", "statement": "When the daemon has exited after a stop command, every driver process it had started has been told to stop.", "quantifier": "for all databases, driver behaviours and schedules of the main loop and the manager threads", "why_tests_cant": "Orphaned drivers depend on the moment of the stop relative to the start of the driver and on earlier time-outs.", "anchors": ["src/tomato/daemon/driver.py:manager", "src/tomato/daemon/driver.py:stop_tomato_driver"]}
{"id": "C76", "title": "No job is launched after the daemon agreed to stop", "statement": "Once the daemon has answered 'stop' with success, no further job is launched.", "quantifier": "for all queues and all schedules of the main loop and the manager threads", "why_tests_cant": "Depends on where the job manager is when the stop command is handled.", "anchors": ["src/tomato/daemon/cmd.py:stop", "src/tomato/daemon/job.py:manager", "src/tomato/daemon/__init__.py:tomato_daemon"]}
{"id": "C77", "title": "A dead driver is started again", "statement": "If a configured driver on record no longer answers, the driver manager notices it when its next check is due and launches a new process in its next pass.", "quantifier": "for all tables, clocks, driver behaviours and everything other programs do between the two passes", "why_tests_cant": "Needs driver crashes at arbitrary moments, and a restart of the machine.", "anchors": ["src/tomato/daemon/driver.py:manager"]}
{"id": "C78", "title": "Restarting the daemon gives drivers a fresh start", "statement": "After the daemon was restarted, every configured driver without a running process gets a process launched.", "quantifier": "for all databases left by earlier daemons and all sequences of restarts and passes", "why_tests_cant": "Depends on databases left behind by arbitrary earlier histories.", "anchors": ["src/tomato/daemon/cmd.py:reload", "src/tomato/daemon/driver.py:manager"]}
{"id": "C79", "title": "One process per driver", "statement": "A driver process is launched only if there is no other process of the same driver.", "quantifier": "for all driver behaviours and all interleavings with other programs", "why_tests_cant": "Depends on the time devices need to register.", "anchors": ["src/tomato/daemon/driver.py:manager", "src/tomato/daemon/driver.py:tomato_driver"]}
{"id": "C80", "title": "Snapshots are taken on schedule", "statement": "A job with a snapshot interval takes its n-th snapshot when its main loop first looks at the clock after n intervals, never earlier; a job without an interval takes none.", "quantifier": "for all intervals, clock readings, numbers of components and interleavings of the threads of the job", "why_tests_cant": "Unbounded schedules, arbitrary delays between two looks at the clock.", "anchors": ["src/tomato/daemon/job.py:job_main_loop"]}
{"id": "C81", "title": "Snapshots are faithful and only grow", "statement": "A snapshot contains, for every component with stored data, all data stored when it was begun and only data delivered by the time it was written, in order; a later snapshot contains everything an earlier one contains.", "quantifier": "for all interleavings of the main thread and the threads of the components, all orders in which the files are listed", "why_tests_cant": "The files change while the snapshot is taken.", "anchors": ["src/tomato/daemon/job.py:job_main_loop", "src/tomato/daemon/io.py:merge_netcdfs", "src/tomato/daemon/io.py:data_to_pickle"]}
{"id": "C82", "title": "Snapshots do not disturb the job", "statement": "Whether snapshots are taken or not, the job executes its tasks and ends in the same way.", "quantifier": "for all interleavings of the main thread and the threads of the components", "why_tests_cant": "The harmful moment is the short time during which a file is rewritten.", "anchors": ["src/tomato/daemon/job.py:job_main_loop", "src/tomato/daemon/io.py:merge_netcdfs"]}
{"id": "C83", "title": "Periodic snapshots are stored where the payload asks", "statement": "The snapshots of a job are stored in the folder given in settings.snapshot.path of the payload, by default the folder from which the job was submitted.", "quantifier": "for all payloads and folders", "why_tests_cant": "The tests only use the default.", "anchors": ["src/tomato/ketchup/__init__.py:submit", "src/tomato/daemon/job.py:tomato_job"]}
{"id": "C84", "title": "A job starts as soon as its drivers are available", "statement": "A job starts its tasks as soon as the drivers of its own components are available, and not before: each task goes to the port of the driver of its component.", "quantifier": "for every table of drivers, every configuration and method, and everything the driver manager does while the job waits", "why_tests_cant": "The tests have one working driver, or wait for all of them; that an unrelated broken driver blocks a job for ever is a statement about all later passes, and the race between the check and the start needs a schedule.", "anchors": ["src/tomato/daemon/job.py:731-783", "src/tomato/daemon/driver.py:344-415"]}
{"id": "C85", "title": "tomato status reports the configuration and the tables", "statement": "tomato status with a group reports exactly the configured devices, components with the capabilities their drivers report, pipelines and drivers, as they are at that moment; it changes nothing; an unknown group is refused, and otherwise it fails only if the daemon does not answer.", "quantifier": "for every configuration, every state of the tables and drivers, and everything that happens while the command is running", "why_tests_cant": "The tests query an undisturbed daemon with working drivers and non-empty tables.", "anchors": ["src/tomato/tomato/__init__.py:106-256"]}
{"id": "C86", "title": "tomato start starts one daemon, with its configuration", "statement": "However many start, stop and reload commands run at the same time, at most one daemon serves a port. A start that reports success has started a daemon, which serves the port with the configuration in the folder given; a start that fails has not started anything; if a daemon is running, start is refused and has no effect.", "quantifier": "for every number of concurrent commands and daemon processes, every interleaving of their steps, every content and edit of the files, every delay", "why_tests_cant": "The tests start one daemon at a time and wait for it.", "anchors": ["src/tomato/tomato/__init__.py:259-330", "src/tomato/daemon/__init__.py:49-59"]}
{"id": "C87", "title": "tomato stop stops the daemon", "statement": "tomato stop always returns. If it reports success, the daemon it found running has been stopped, no other one has been, the port is free, and no daemon serves the port until the next start.", "quantifier": "for every number of concurrent commands and daemon processes and every interleaving of their steps, including crashes of daemons", "why_tests_cant": "The tests stop one daemon that keeps answering, and wait before the next start.", "anchors": ["src/tomato/tomato/__init__.py:333-372", "src/tomato/daemon/__init__.py:88-107"]}
{"id": "C88", "title": "tomato reload loads the settings it names", "statement": "If tomato reload reports that the settings from a folder have been loaded, the daemon runs with the configuration in that folder.", "quantifier": "for every folder given to start and to reload, every content of the files, every interleaving with other commands", "why_tests_cant": "The tests use the same folder for start and reload.", "anchors": ["src/tomato/tomato/__init__.py:462-508", "src/tomato/daemon/cmd.py:76-90"]}
{"id": "C89", "title": "Killing the daemon while it launches a job loses nothing", "statement": "Whatever moment the daemon is killed at, every submitted job that has not been launched can still be launched after a restart, and no pipeline stays reserved for a job that is never launched.", "quantifier": "for every execution (any number of jobs, pipelines, commands, kills and restarts, in any interleaving), every moment of the kill, every continuation", "why_tests_cant": "The tests never kill the daemon between two particular operations, and cannot look at all continuations.", "anchors": ["src/tomato/daemon/job.py:234-318", "src/tomato/daemon/pip.py:48-85"]}
{"id": "C90", "title": "Settings accepted by the daemon suffice to launch jobs", "statement": "With every configuration the daemon accepts, a job for which a folder has been made or a pipeline has been reserved is launched: no pass of the job manager gives up in the middle of a launch because of the settings or of the device file.", "quantifier": "for every execution with any sequence of configurations, jobs, pipelines and commands", "why_tests_cant": "The tests write complete settings with tomato init before every run; settings kept from an earlier version are never used.", "anchors": ["src/tomato/daemon/job.py:269-284", "src/tomato/tomato/__init__.py:403-426"]}
{"id": "C91", "title": "Files do not affect the guarantees of the queue", "statement": "Everything proved about jobs, pipelines and launches holds as well if job processes may fail at any point because of their files (the output folder, the result file, the archive): consistent tables, jobs launched once, immutable records, no pipeline assigned twice.", "quantifier": "for every execution of any number of programs with any files, changed at any time by anybody", "why_tests_cant": "The tests write to fresh temporary folders; the points at which a job process can fail because of files, combined with all interleavings, can not be enumerated.", "anchors": ["src/tomato/daemon/job.py:355-497", "src/tomato/daemon/crates.py:46-79"]}
{"id": "C92", "title": "The output folder of a job is prepared reliably", "statement": "If nothing but folders is in the way, a job process makes its output folder, with all folders above it, and goes on, even if others make some of these folders at the same time. If something else is in the way, the job ends with an error and nothing is changed.", "quantifier": "for every path, every tree of files, every interleaving with others that make folders", "why_tests_cant": "The race between two jobs needs both processes to look for the folder before either has made it; the tests run single jobs in fresh folders.", "anchors": ["src/tomato/daemon/job.py:448-454"]}
{"id": "C93", "title": "Results are stored where the user asked", "statement": "The data of a job is only ever written to its result file in the folder the user asked for: the folder in which the job was submitted, or the output folder of the payload, relative to the former. Job processes change no other files, apart from missing folders on the way and the archive beside the result file.", "quantifier": "for every execution with any number of jobs, any payloads, any files, any working directory of the daemon", "why_tests_cant": "In the tests the daemon and the user share one working directory, so a relative output folder means the same to both.", "anchors": ["src/tomato/ketchup/__init__.py:98-101", "src/tomato/daemon/job.py:446-463", "docs/source/usage.rst:206"]}
{"id": "C94", "title": "Jobs with a repository get an archive of their results", "statement": "If a payload with a repository other than default has been accepted, the job process writes, beside the result file, an archive with the sample of the job and exactly the data of the job.", "quantifier": "for every payload, every execution with any number of jobs with different result files", "why_tests_cant": "The tests never change the settings between submission and launch, and never run several jobs with archives at the same time.", "anchors": ["src/tomato/daemon/job.py:275-278", "src/tomato/daemon/job.py:477-488", "src/tomato/daemon/crates.py:46-79"]}
{"id": "C95", "title": "A job whose tasks all succeed is recorded as completed", "statement": "If all tasks of a job have succeeded, its data is stored in the result file, its status becomes c, and its pipeline is released with the readiness the payload asks for; if a task has failed, the status becomes ce and the rest is the same.", "quantifier": "for every payload, every main loop, every tree of files", "why_tests_cant": "The outcome depends on files that exist before the job starts.", "anchors": ["src/tomato/daemon/job.py:446-497"]}
{"id": "C96", "title": "An ended job has its result file", "statement": "Once a job has ended, its data has been merged into its result file; for a job recorded as completed the file is there and contains the data of this very job.", "quantifier": "for every execution with any number of jobs with different result files in which nobody else removes data files", "why_tests_cant": "The tests look at the result file of single jobs; they can not cover all interleavings with other jobs, cancellations, kills and the job manager.", "anchors": ["src/tomato/daemon/job.py:146-208", "src/tomato/daemon/job.py:470-497", "src/tomato/daemon/io.py:21-48"]}
{"id": "C97", "title": "The queue stays consistent when operations fail", "statement": "If any operation of a command, of a manager or of a job process raises an exception that nobody handles, before or after it had its effect, then still no job is launched twice, no pipeline that is in use is given to another job, the records of jobs are kept, and a new job gets a number above all others.", "quantifier": "for every execution of any number of commands, manager passes and job processes with any number of failures, at any places", "why_tests_cant": "Failures of a locked database, a full disk or a vanished process can be placed after any operation of any of the programs; a test can place a few of them.", "anchors": ["src/tomato/daemon/job.py:46-345", "src/tomato/daemon/jobdb.py", "src/tomato/daemon/pipdb.py", "src/tomato/ketchup/__init__.py"]}
{"id": "C98", "title": "A daemon that answers has its managers", "statement": "As long as the daemon reports the status running, its three manager threads go on with their work; a manager only ends because the daemon was asked to stop.", "quantifier": "for every initial database and every interleaving of the main loop, the managers and clients", "why_tests_cant": "It is a statement about everything that happens after a failure in any pass.", "anchors": ["src/tomato/daemon/__init__.py:55-101", "src/tomato/daemon/job.py:259-345", "src/tomato/daemon/pip.py", "src/tomato/daemon/driver.py:36-196"]}
{"id": "C99", "title": "Every job comes to its end", "statement": "If every thread of a job gets its turn again and again and no component answers 'not yet' for ever, the main loop of the job ends.", "quantifier": "for every job, every infinite fair schedule of its threads, all other answers of the components", "why_tests_cant": "Liveness under all fair schedules is not observable in any finite test.", "anchors": ["src/tomato/daemon/job.py:500-829"]}
{"id": "C100", "title": "Reloading does not lose track of the jobs", "statement": "After an accepted reload of the settings, the daemon still knows every job it knew before, with what was submitted; and no pipeline is given to two jobs at a time, in whatever databases these jobs are recorded.", "quantifier": "for every sequence of reloads with any settings (database and storage folder included), interleaved in any way with commands, managers and jobs; any number of databases", "why_tests_cant": "The settings can change at any moment, and what is lost shows up only in later commands on another database.", "anchors": ["src/tomato/daemon/cmd.py:46-157", "src/tomato/models.py:60-111", "src/tomato/daemon/job.py:235-345"]}
{"id": "C101", "title": "Driver processes work with the current configuration", "statement": "After an accepted reload, every driver process works with the settings and the components that the new configuration gives to its driver.", "quantifier": "for every sequence of reloads, starts of driver processes, registrations and other messages; any number of processes; any behaviour of the devices", "why_tests_cant": "The order of reloads, restarts and registrations is arbitrary, and an outdated setting has no visible effect until much later.", "anchors": ["src/tomato/daemon/driver.py:36-81", "src/tomato/daemon/driver.py:199-240", "src/tomato/daemon/cmd.py:78-157"]}
{"id": "C102", "title": "qw says that a suitable pipeline exists", "statement": "A job gets the status `qw` only from a pass of the job manager in which it was seen with status `q`, and in which a configured pipeline was found that has the roles of all its tasks, whose components provide all its techniques and accept all its tasks. As long as the job has this status, such a pipeline exists.", "quantifier": "for every execution: all interleavings of the job manager with commands, job processes, drivers and other managers, all configurations and driver replies", "why_tests_cant": "Tests submit one job to a running daemon and wait for `qw`; the claim is about every way in which the status can arise, and about what happens to it under later reloads.", "anchors": ["src/tomato/daemon/job.py:211-231", "docs/source/usage.rst:161"]}
{"id": "C103", "title": "A complete job has carried out all its tasks and has all their data", "statement": "If a job ends with status `c`, then for every component of the job all its tasks were carried out from beginning to end, one after the other in the order of the method, and the job's file of that component has exactly the data points measured for these tasks, in order.", "quantifier": "for all methods, all numbers of components, all assignments of components to driver processes, and all interleavings of the job's threads, the main thread of the job, the drivers and the workers of the components", "why_tests_cant": "the number of interleavings of several job threads, driver processes and worker threads is unbounded; tests see a few undisturbed runs", "anchors": ["src/tomato/daemon/job.py:500-829", "src/tomato/daemon/driver.py:247-316", "src/tomato/driverinterface_2_1/__init__.py:519-684"]}
{"id": "C104", "title": "A device that has failed is left alone", "statement": "Once a function of a device has raised an exception while the component was carrying out a task (or a one-shot measurement, interface 2.1), the task is not continued: the device makes no further measurement for it. With interface 2.1, it is not used at all until the component is reset.", "quantifier": "for all tasks, all sequences of commands to the component, and all interleavings of commands with the threads of the component", "why_tests_cant": "needs devices that raise at arbitrary places, and commands that arrive at arbitrary moments around the failure; the tests use devices that do not fail", "anchors": ["src/tomato/driverinterface_2_1/__init__.py:519-570", "src/tomato/driverinterface_2_0/__init__.py:566-616", "src/tomato/driverinterface_2_0/__init__.py:671-674"]}
{"id": "C105", "title": "A fresh installation is configured with the folders it was given", "statement": "After a successful `tomato init` in a folder without settings, reading the settings file gives back the data and log folders passed to the command, the job storage and the database below the data folder, the devices file next to the settings, and the daemon started with these files has exactly the example pipeline, with its component, and its driver with the driver settings of the file.", "quantifier": "for all paths of the three folders, all versions, all times, all file systems", "why_tests_cant": "the tests use a few temporary folders with plain names; the settings are written by pasting paths into a template, so that what is read back depends on every character of the path", "anchors": ["src/tomato/tomato/__init__.py:400-453", "src/tomato/models.py:93-111", "src/tomato/models.py:168-235"]}
{"id": "C106", "title": "A registration by hand reports its outcome", "statement": "`passata register` makes the driver register the component. If the device could be registered, the reply is a success with the capabilities of the component; otherwise it is a failure.", "quantifier": "for all drivers of both interface versions, all devices, and all sequences of messages the daemon has answered before", "why_tests_cant": "the reply to the user depends on the previous message some other program sent to the daemon; tests run one command at a time on a daemon whose last reply was a success", "anchors": ["src/tomato/daemon/driver.py:284-290", "src/tomato/daemon/__init__.py:75-86", "src/tomato/daemon/cmd.py:1-140", "src/tomato/passata/__init__.py:105-128"]}
{"id": "C107", "title": "A job is not confused with another program", "statement": "The process id kept on record for a job is that of the job's own process. While a process with this id exists, it is the job's; and when a job is cancelled, only processes started by job processes are terminated.", "quantifier": "for all reachable states and interleavings of managers, commands, job processes and crashes, and all process ids the operating system hands out", "why_tests_cant": "process ids are reused only after the counter of the system wraps around or the machine is started again; no test restarts the machine between two passes", "anchors": ["src/tomato/daemon/job.py:176-236", "src/tomato/daemon/pip.py:48-82", "src/tomato/daemon/job.py:427-446"]}
{"id": "C108", "title": "Data of different roles and jobs do not mix", "statement": "The file of intermediate data of a role of a job contains only data points measured for the tasks of this role of this job, in the order in which they were measured, whatever other roles and other jobs do at the same time.", "quantifier": "for any number of threads of any jobs, all lists of tasks, all assignments of components to threads that the file of devices allows, all interleavings of threads, workers and command threads", "why_tests_cant": "the data of two roles mix only if one thread's request falls between two steps of the worker which serves the other one; the tests of the project use one role per component", "anchors": ["src/tomato/daemon/job.py:500-719", "src/tomato/daemon/job.py:752-785", "src/tomato/driverinterface_2_1/__init__.py:308-361", "src/tomato/models.py:168-237"]}
{"id": "C109", "title": "A driver process announces itself exactly when it serves", "statement": "A started driver process goes into service if and only if there is a package for the driver, the driver is configured and accepts its settings, and it is in the table of drivers. Then its port, process id and version are on record and nothing else has changed; otherwise the process leaves no trace. Different drivers have different packages.", "quantifier": "for all sets of installed packages, configurations, names, ports, process ids and contents of the database", "why_tests_cant": "the tests only start the drivers that are installed with the project; packages that can not be imported or that reject their settings do not occur", "anchors": ["src/tomato/daemon/driver.py:204-241", "src/tomato/drivers.py:20-34", "src/tomato/utils.py:33-44"]}
{"id": "C110", "title": "Registering a component again does not disturb it", "statement": "A component can be registered any number of times. At any time, at most one task or measurement is executed on it; and when a device is replaced by a new one, everything it was asked to do is done and all its data have been handed out.", "quantifier": "for all sequences of registrations, teardowns and commands, all interleavings of the command thread with the workers of all devices ever created for the component", "why_tests_cant": "the tests register each component once; a worker that is left behind is not visible in any reply of the driver", "anchors": ["src/tomato/driverinterface_2_1/__init__.py:104-142", "src/tomato/driverinterface_2_1/__init__.py:492-505", "src/tomato/daemon/driver.py:54-79", "src/tomato/daemon/driver.py:284-285", "src/tomato/passata/__init__.py:105-128"]}
{"id": "C111", "title": "Samples, polls and snapshots are made when they are due", "statement": "The i-th sample of a task is taken within the interval after it is due, and never before. A task ends when its maximum duration is over, and takes as many samples as there are sampling intervals in its duration. The same holds for the data polled by the thread of a job and for the snapshots of a job.", "quantifier": "for all intervals and durations, and all times which the clock, the device, the driver and the merging of data take", "why_tests_cant": "the tests run tasks of a few seconds on devices which answer at once, and count samples with a tolerance", "anchors": ["src/tomato/driverinterface_2_1/__init__.py:536-550", "src/tomato/driverinterface_2_0/__init__.py:589-609", "src/tomato/daemon/job.py:623-641", "src/tomato/daemon/job.py:684", "src/tomato/daemon/job.py:789-823"]}
{"id": "C112", "title": "A ready component of interface 2.0 takes the next task", "statement": "Whenever a component of interface 2.0 reports to be ready, it is not executing anything, all tasks accepted since the last reset have been taken up in the order in which they came, and the next task is accepted and executed without ending the driver process. Things are executed one at a time, each to its end; no data point of a task is lost or handed out twice; and when the duration of a task is over, the component gets ready again.", "quantifier": "for all sequences of commands, all interleavings with the threads of the component, and all results of the devices", "why_tests_cant": "the tests start tasks a second or more after the previous one has ended; the window between the two assignments is microseconds wide", "anchors": ["src/tomato/driverinterface_2_0/__init__.py:317-415", "src/tomato/driverinterface_2_0/__init__.py:545-634", "src/tomato/driverinterface_2_0/__init__.py:691-699", "src/tomato/driverinterface_2_0/__init__.py:721-728"]}
{"id": "C113", "title": "A job that failed to start is given up", "statement": "If the process launched for a job ends, or does not connect within ten seconds, the job is recorded as failed by the next supervision pass, and it does not keep the job manager from launching other jobs.", "quantifier": "for all reachable states, all moments at which the process ends, and all continuations", "why_tests_cant": "the tests have no job process that fails to start, and the second part takes ten days", "anchors": ["src/tomato/daemon/job.py:41", "src/tomato/daemon/job.py:146-208", "src/tomato/daemon/job.py:254-275", "src/tomato/daemon/pip.py:48-65"]}
{"id": "C114", "title": "Names are data", "statement": "Whatever a pipeline, a driver or a job is called, and whatever text is searched for, a statement sent to the database reads or changes exactly the rows that are meant, those with that name, id or property; no name makes an operation on it fail or makes it reach another row.", "quantifier": "for all names and search texts, all contents of the tables, all statements of the code, and all executions of the system", "why_tests_cant": "the tests use a few names made of letters and digits; statements are built by pasting texts, and their meaning depends on every character of the name", "anchors": ["src/tomato/daemon/jobdb.py:18-73", "src/tomato/daemon/pipdb.py:17-57", "src/tomato/daemon/drvdb.py:17-74", "src/tomato/ketchup/__init__.py:171-175", "src/tomato/ketchup/__init__.py:338", "src/tomato/daemon/job.py:159", "src/tomato/daemon/job.py:220", "src/tomato/daemon/job.py:256"]}
{"id": "C115", "title": "A device file is read as it is written", "statement": "A device file is accepted exactly if it is a consistent description of devices and pipelines in which all names, drivers, addresses, channels and roles are strings (numbers are not converted), and the configuration obtained is exactly the one described.", "quantifier": "for all documents (values of any shape: null, truth values, numbers, strings, lists, mappings, nested in any way)", "why_tests_cant": "the tests use a handful of well-formed files; there are infinitely many shapes of documents, and whether a wrongly typed entry is found depends on which python operation meets it first", "anchors": ["src/tomato/models.py:134-139", "src/tomato/models.py:147-235"]}
{"id": "C116", "title": "Accepted settings are complete", "statement": "If the daemon accepts its settings, at its start or on reload, then they contain all the entries its managers and commands read: no manager thread and no command ever ends with an exception for want of an entry.", "quantifier": "for all contents of the settings and device files, at all times, and all sequences of reloads, stops and passes of the managers", "why_tests_cant": "needs incomplete files at the right moments, and the effect shows up only in a later pass or command", "anchors": ["src/tomato/models.py:78-111", "src/tomato/daemon/cmd.py:78-155", "src/tomato/daemon/__init__.py:28", "src/tomato/daemon/job.py:270-276", "src/tomato/daemon/driver.py:352-408", "src/tomato/daemon/pip.py:46"]}
{"id": "C117", "title": "A job works with the configuration its pipeline was chosen for", "statement": "From the beginning of the pass of the job manager in which a pipeline is chosen for a job, until the pipeline is free again, the daemon's configuration of this pipeline does not change: the same components in the same roles, with the same driver, address and channel, and the same settings of their drivers. In particular, the process of the job, which asks the daemon for the configuration itself, starts its threads for the components the job was matched with.", "quantifier": "for all executions of the system with any interleaving of the job manager, job processes, commands and reloads with any configuration files (as long as the path of the database stays the same), all pipelines and all jobs", "why_tests_cant": "A reload has to fall between the request for the configuration at the beginning of a pass and the reservation of a pipeline in the same pass, which takes milliseconds; all interleavings with all later reloads cannot be run.", "anchors": ["src/tomato/daemon/cmd.py:92-157", "src/tomato/daemon/job.py:346-349", "src/tomato/daemon/job.py:394-401", "src/tomato/daemon/job.py:731-783", "src/tomato/daemon/pip.py:68-85"]}
{"id": "C118", "title": "Stored values keep their names, times and units", "statement": "Every value a component has measured during a task is stored in the file of its role at the time at which it was measured, under its own name and with its own unit, exactly once and in order, and the file has no value that was not measured then. Taking a further sample never fails because of the values in it.", "quantifier": "for all sequences of samples with any variables, values, units and times, and for all moments at which the job thread fetches and stores the data", "why_tests_cant": "What is stored depends on which samples fall between two requests for data, since samples are put together in two places with different rules; the sequences of samples and the moments of the requests cannot all be tried.", "anchors": ["src/tomato/driverinterface_2_1/__init__.py:581-597", "src/tomato/driverinterface_2_1/__init__.py:631-639", "src/tomato/driverinterface_2_0/__init__.py:644-660", "src/tomato/driverinterface_2_0/__init__.py:691-699", "src/tomato/daemon/io.py:51-66", "src/tomato/daemon/job.py:631-640", "src/tomato/daemon/job.py:673-682", "src/tomato/daemon/job.py:690-698"]}
{"id": "C119", "title": "A driver which stops leaves nothing running", "statement": "When a driver is told to stop, or its main loop ends because of an exception, every component it has ever created is brought to rest before the process has ended: the component is reset, also if it has since been replaced or torn down; a measurement that was being made is ended and not cut off, its lock is free, and after its reset the component takes up nothing any more. After the driver has answered that it stops, no component goes on with its task, and the process ends.", "quantifier": "for all numbers of components, all sequences of registrations, teardowns, tasks and commands before, all interleavings of the main thread with the workers of all components, and both behaviours of the interpreter concerning new threads at exit", "why_tests_cant": "What is left running depends on where each worker is at the moment of the message and on how the steps of the workers fall between those of the shutdown; a test sees a few such moments only, and with few components.", "anchors": ["src/tomato/daemon/driver.py:263-269", "src/tomato/daemon/driver.py:309-323", "src/tomato/driverinterface_2_1/__init__.py:428-454", "src/tomato/driverinterface_2_1/__init__.py:505", "src/tomato/driverinterface_2_1/__init__.py:669-683"]}
{"id": "C120", "title": "No settings end a driver process", "statement": "Whatever is in the settings of a driver, in the settings file or in a message `settings`, the driver process goes on serving messages; it does not end because of a value in its settings.", "quantifier": "for all settings of any form (tables with any values, lists, texts, numbers, null), all sequences of turns of the main loop with or without messages, at all times", "why_tests_cant": "Settings are read again in each turn of the main loop, and used only in some turns (depending on the time of the last measurement); the forms settings can have cannot be enumerated.", "anchors": ["src/tomato/daemon/driver.py:84-114", "src/tomato/daemon/driver.py:199-225", "src/tomato/daemon/driver.py:247-319"]}
{"id": "C121", "title": "Pipeline commands report the row they have seen", "statement": "The reply of `tomato pipeline load`, `eject` and `ready` contains the row of the named pipeline as it was when the command looked at it last, that is, as it is after the command; if the command succeeds, the row shows what was asked for (the sample, no sample, ready); if it is refused, the row shows why (a sample, a job). Only if the daemon does not run or does not know the pipeline, there is no row.", "quantifier": "for every configuration, every table of pipelines, all names and samples, and all interleavings with other programs", "why_tests_cant": "The row reported is read again after the update; what other programs do between the update and this look depends on timing, and the contents of the table cannot all be tried.", "anchors": ["src/tomato/tomato/__init__.py:511-547", "src/tomato/tomato/__init__.py:550-592", "src/tomato/tomato/__init__.py:595-637", "src/tomato/daemon/pipdb.py:27-41"]}
{"id": "C122", "title": "A component does not keep a driver from serving the others", "statement": "A driver takes up messages for a component no matter what its other components are doing; no command waits for the measurement of another component.", "quantifier": "for all numbers of components, all sequences of commands, and all interleavings of the main thread with the workers of all components", "why_tests_cant": "Whether the main thread waits depends on where the worker of a component is when its data is asked for; the measurements of simulated devices in tests are over at once, so the waiting is never seen.", "anchors": ["src/tomato/daemon/driver.py:247-319", "src/tomato/driverinterface_2_1/__init__.py:327-361", "src/tomato/driverinterface_2_1/__init__.py:539-551", "src/tomato/driverinterface_2_1/__init__.py:631-639", "src/tomato/driverinterface_2_1/__init__.py:669-683"]}
{"id": "C123", "title": "A driver of interface 2.0 which stops cuts nothing off", "statement": "When a driver of interface 2.0 is told to stop, its process ends after a bounded number of steps whatever its components do; every task that is running is told to end and takes at most one more sample; and when the process has ended, every component it has ever created has been reset and no task or measurement of it is cut off.", "quantifier": "for all numbers of components, all sequences of registrations, teardowns, tasks and commands before, and all interleavings of the main thread with the threads of all components", "why_tests_cant": "The outcome depends on what each thread is doing in the moment the main thread looks at it, and on threads left behind by earlier resets; a test stops a driver in one state.", "anchors": ["src/tomato/driverinterface_2_0/__init__.py:475-505", "src/tomato/driverinterface_2_0/__init__.py:545-633", "src/tomato/driverinterface_2_0/__init__.py:721-728", "src/tomato/daemon/driver.py:309-323"]}
{"id": "C124", "title": "A driver's setting lpp_timeout only decides how long its answers are awaited", "statement": "Whatever the settings of a driver contain as `lpp_timeout`, each request of a job's thread is tried up to three times, each attempt is given the time which the setting says (one second without it), the first answer in time is used, and if there is none the thread gives up after three times this time. No value ends a thread in another way, keeps it waiting for ever, or lets a job whose tasks were never sent be recorded as completed.", "quantifier": "for every value of the setting, all delays of all answers, all tasks, and all interleavings of the threads", "why_tests_cant": "The value may be of any type that a settings file can hold, and the delays of the answers to each attempt cannot all be tried; the outcome also depends on when the main thread looks at the threads.", "anchors": ["src/tomato/daemon/job.py:523-529", "src/tomato/daemon/lpp.py:15-60", "src/tomato/models.py:106-111"]}
{"id": "C125", "title": "With a driver of interface 2.0, a job stores every data point measured for its tasks", "statement": "A thread of a job whose component belongs to a driver of interface 2.0 gets the data points measured for its tasks into its file: whenever it is not in the middle of a task, the file has exactly the points measured for the tasks it has started, in order, each once; at any other moment it has the beginning of them. The requests of the job do not end the driver process.", "quantifier": "for all lists of tasks, all results and durations of the measurements, all interleavings of the thread of the job, the driver and the threads of the component, all losses of requests, and one-shot measurements at any time", "why_tests_cant": "The outcome depends on how the steps of the component's threads (setting and unsetting `running`, preparing the next thread) fall between the requests of the job and the driver's own measurements; the windows are microseconds wide, and tests use slow tasks on one component.", "anchors": ["src/tomato/driverinterface_2_0/__init__.py:317-415", "src/tomato/driverinterface_2_0/__init__.py:556-728", "src/tomato/daemon/job.py:500-713", "src/tomato/daemon/driver.py:247-316"]}
{"id": "C126", "title": "Commands to a component of interface 2.0 take effect as a whole", "statement": "What a component of interface 2.0 does for a request is not changed by its own threads acting between the single assignments of the command: whenever the driver is between two requests, the component is in the state, and has done the things, which commands executed without interruption would have led to. In particular a task or a measurement answered with success is begun, by the thread made for it, and the component does not hang.", "quantifier": "for all sequences of requests, all interleavings of the main thread of the driver process with the threads of the component, and all results of the devices", "why_tests_cant": "The windows are a few bytecode instructions wide: the last assignment of the old thread has to fall between two statements of run() or measure().", "anchors": ["src/tomato/driverinterface_2_0/__init__.py:317-416", "src/tomato/driverinterface_2_0/__init__.py:555-634", "src/tomato/driverinterface_2_0/__init__.py:671-699", "src/tomato/driverinterface_2_0/__init__.py:721-728"]}
{"id": "C127", "title": "A command acts on the daemon and on the jobs its command line names", "statement": "tomato, ketchup and passata call the function of the subcommand which their command line names, with the port, the timeout and the other options as they were given last on the command line, or else their defaults, with the positional arguments of the command line in their order, and with the log level asked for by -v and -q anywhere on it; ketchup and passata look for the daemon at that port and only there. A command line with anything in it which is not understood is refused.", "quantifier": "for every program, every subcommand, every command line (options in any number, order and spelling, values and positionals any text), every meaning of int() and every state of the daemon", "why_tests_cant": "the tests call a few fixed command lines; what argparse does with interleaved, repeated, misspelt or misplaced arguments concerns infinitely many command lines, and the arguments which parse_known_args leaves over are dropped silently", "anchors": ["src/tomato/__init__.py:24-49", "src/tomato/__init__.py:51-165", "src/tomato/__init__.py:167-290", "src/tomato/__init__.py:293-375"]}
{"id": "C128", "title": "The processes of tomato are told what is meant for them", "statement": "The daemon started by tomato start runs with the port and the directory of that command line and the log level it asks for; every driver process is told the port of its daemon, the log level, the directory of the logs and the name of its driver; every job process is told the port of its daemon, the log level, the database and its file, and uses its default timeout and number of retries.", "quantifier": "for every port and log level, every directory, path and driver name (any text), and every command line of tomato start", "why_tests_cant": "the tests use a few fixed paths and names; that the command line built on one side is read as meant on the other is a statement about all texts, with argparse in between", "anchors": ["src/tomato/tomato/__init__.py:316-327", "src/tomato/daemon/__init__.py:44-49", "src/tomato/daemon/driver.py:164-193", "src/tomato/daemon/driver.py:401-416", "src/tomato/daemon/job.py:295-310", "src/tomato/daemon/job.py:362-402"]}
{"id": "C129", "title": "The last data of a component is that of its latest measurement", "statement": "At any time the last data which a component reports is what its most recently completed measurement stored, whether this was done for a task or on its own, and there is none before the first measurement and after a reset. When data points of a task are handed out, they end with the last data.", "quantifier": "for all histories of a component of interface 2.1 and of interface 2.0: all commands, all interleavings of the threads, all results of the device", "why_tests_cant": "the tests ask for the last data after a fixed wait; that no interleaving of measurements, fetches, stops and resets shows older data is a statement about all histories", "anchors": ["src/tomato/driverinterface_2_1/__init__.py:250-266", "src/tomato/driverinterface_2_1/__init__.py:580-597", "src/tomato/driverinterface_2_1/__init__.py:632-643", "src/tomato/driverinterface_2_0/__init__.py:299-315", "src/tomato/driverinterface_2_0/__init__.py:691-703"]}
{"id": "C130", "title": "Constants and status of a component are reported as stored", "statement": "The constants reported for a component are all constants of the component and those of its driver which the component does not redefine. The status of a component consists of the attributes marked for it, each with the value read, and of whether the component is running. A component which is not registered is refused.", "quantifier": "for all dictionaries of constants, all sets of attributes and values, all components", "why_tests_cant": "the tests use the example driver, whose driver and components share no constants and have a few attributes", "anchors": ["src/tomato/driverinterface_2_1/__init__.py:193-210", "src/tomato/driverinterface_2_1/__init__.py:238-248", "src/tomato/driverinterface_2_0/__init__.py:238-255", "src/tomato/driverinterface_2_0/__init__.py:287-297", "src/tomato/driverinterface_2_1/decorators.py:13-27"]}
{"id": "C131", "title": "The times recorded for a job are in order", "statement": "As long as the clock of the machine never goes back: a job was submitted not later than it was launched, connected and completed, it connected not later than it was completed, and no recorded time lies in the future.", "quantifier": "for every interleaving of any number of commands, passes of the job manager and job processes, with crashes at any point, and every way in which the clock may advance", "why_tests_cant": "each writer reads the clock some operations before it writes the row, and all others may act in between; tests see a few undisturbed runs", "anchors": ["src/tomato/ketchup/__init__.py:114-116", "src/tomato/daemon/job.py:204-208", "src/tomato/daemon/job.py:312-314", "src/tomato/daemon/job.py:440-445", "src/tomato/daemon/job.py:470-492"]}
{"id": "C132", "title": "Each time of a job is written once", "statement": "The times of launch, connection and completion of a job, once recorded, never change and never disappear.", "quantifier": "for every interleaving of any number of commands, passes of the job manager and job processes, with crashes at any point and any behaviour of the clock", "why_tests_cant": "a second write needs two programs to act on the same job at the same time, or a job to be started twice", "anchors": ["src/tomato/daemon/job.py:204-208", "src/tomato/daemon/job.py:312-314", "src/tomato/daemon/job.py:440-445", "src/tomato/daemon/job.py:470-492"]}
{"id": "C133", "title": "The times of a job agree with its status", "statement": "Times of launch and connection are only recorded for jobs that were launched, times of completion only for jobs that connected; a job was launched before it connected. A running job has connected and is not completed; a job has a time of completion exactly if it has ended.", "quantifier": "for every reachable state: any interleaving of commands, passes of the job manager and job processes, with crashes at any point", "why_tests_cant": "the tests read status and times of jobs which ran undisturbed", "anchors": ["src/tomato/ketchup/__init__.py:246-255", "src/tomato/daemon/job.py:204-208", "src/tomato/daemon/job.py:305-314", "src/tomato/daemon/job.py:440-445", "src/tomato/daemon/job.py:470-492"]}
{"id": "C134", "title": "A job process is given what was submitted", "statement": "Every job process finds a complete file jobdata.json with the id and the folder of its job, the payload that was submitted for it, the pipeline that the job manager has chosen, as configured in the pass in which the job was launched, and exactly those configured repositories that the payload asks for. The file is never written again, and the process works for exactly this job and this pipeline.", "quantifier": "for all executions of the system with any interleaving of the job manager (killed at any point, also between opening and writing the file), commands, drivers and job processes; all jobs, pipelines, payloads and configurations", "why_tests_cant": "Whether a process reads a half-written file or that of another job depends on the interleaving and on the moment the job manager is killed.", "anchors": ["src/tomato/daemon/job.py:262-302", "src/tomato/daemon/job.py:403-411"]}
{"id": "C135", "title": "A reload that does not concern running jobs is accepted", "statement": "If the configuration files can be read, a reload is accepted exactly if every pipeline with a job is configured as before (same roles and components, same driver, address and channel of each component, same settings of its driver). A refusal gives a reason that is true of the old and the new configuration. A reload of unchanged files is accepted whatever jobs are running and changes neither the daemon nor a table. An accepted reload answers with the daemon as it is from then on.", "quantifier": "for every old and new configuration and every pipeline table", "why_tests_cant": "Quantifies over pairs of configurations and all tables.", "anchors": ["src/tomato/daemon/cmd.py:reload"]}
{"id": "C136", "title": "The programs report what the command replied", "statement": "tomato, ketchup and passata call the function of the subcommand once and then print one report of its reply: the whole reply as YAML if -y was given, else one text which begins with Success exactly if the reply is a success, followed by its message. ketchup and passata first ask the daemon of the given port; if it is not there they report that and call nothing, otherwise the function is given the daemon as it described itself. After a usage error or an exception nothing is reported and the exit status is not 0. The exit status is 0 exactly if the command succeeded.", "quantifier": "for every command line, every behaviour of the daemon and of the functions called", "why_tests_cant": "Quantifies over all command lines, replies and exceptions.", "anchors": ["src/tomato/__init__.py:parse_args", "pyproject.toml:project.scripts"]}
{"id": "C137", "title": "A rejected device file is explained", "statement": "Reading a device file whose entries are not all consistent ends with the assertion, and its message, about the first entry that is not consistent.", "quantifier": "for every device file", "why_tests_cant": "Quantifies over all files; the failing message is only found by the one kind of mistake nobody tried.", "anchors": ["src/tomato/models.py:DeviceFile.populate_attrs"]}
{"id": "C138", "title": "The data of each role is kept in a file of its own in the folder of the job", "statement": "The intermediate data of a role of a job is written to a file directly in the folder of that job, and no other role and no other job writes to the same file.", "quantifier": "for every file system, every two folders of jobs and every two roles", "why_tests_cant": "Roles are free text of the device file and the payload; tests use a few plain words, the claim is about all texts.", "anchors": ["src/tomato/daemon/job.py:job_thread", "src/tomato/daemon/io.py:data_to_pickle"]}
