{
 "claims": [
  {
   "property": "C01",
   "status": "proved",
   "theorems": [
    "Tomato.Props.C01_submit_appends_fresh_job",
    "Tomato.Props.C01_ids_fresh_concurrent"
   ],
   "note": ""
  },
  {
   "property": "C02",
   "status": "partial",
   "theorems": [
    "Tomato.Props.C02_exact",
    "Tomato.Props.C02_submit_reports_own_job_partial",
    "Tomato.Props.C02_refuted"
   ],
   "note": "False of the code when two submissions carry the same time stamp (insert_job looks the id up by submitted_at); proved when the time stamp is unique. C02_exact: the exact outcome in all cases."
  },
  {
   "property": "C03",
   "status": "proved",
   "theorems": [
    "Tomato.Props.C03_records_immutable"
   ],
   "note": ""
  },
  {
   "property": "C04",
   "status": "proved",
   "theorems": [
    "Tomato.Props.C04_status_exact"
   ],
   "note": ""
  },
  {
   "property": "C05",
   "status": "partial",
   "theorems": [
    "Tomato.Props.C05_exact",
    "Tomato.Props.C05_search_substring_partial",
    "Tomato.Props.C05_refuted"
   ],
   "note": "False of the code for % _ and quotes; proved for all other texts. C05_exact: the exact meaning of the pattern, for every text in which quotes are doubled."
  },
  {
   "property": "C06",
   "status": "proved",
   "theorems": [
    "Tomato.Props.C06_repositories_checked",
    "Tomato.Props.C06_bad_files_no_effect"
   ],
   "note": ""
  },
  {
   "property": "C07",
   "status": "partial",
   "theorems": [
    "Tomato.Props.C07_exact",
    "Tomato.Props.C07_at_most_one",
    "Tomato.Props.C07_cancel_one_partial",
    "Tomato.Props.C07_refuted",
    "Tomato.Props.C07_refuted_rd"
   ],
   "note": "False of the code for lists with several ids (only the last id is ever updated) and for jobs in status rd; proved for a single job. C07_exact: the exact outcome for every list of existing jobs."
  },
  {
   "property": "C08",
   "status": "proved",
   "theorems": [
    "Tomato.Props.C08_cancel_touches_only_listed"
   ],
   "note": ""
  },
  {
   "property": "C09",
   "status": "partial",
   "theorems": [
    "Tomato.Props.C09_exact",
    "Tomato.Props.C09_finished_unaffected_partial",
    "Tomato.Props.C09_refuted"
   ],
   "note": "False of the code when the finished job is the last of a list with an unfinished one; proved otherwise. C09_exact: exactly which jobs are changed."
  },
  {
   "property": "C10",
   "status": "partial",
   "theorems": [
    "Tomato.Props.C10_cancelled_never_started_partial",
    "Tomato.Props.C10_settled",
    "Tomato.Props.C10_refuted",
    "Tomato.Props.C10_refuted_undone"
   ],
   "note": "the scheduler does not re-read the status between listing and launching, so a cancel in between does not prevent the launch, or is overwritten with qw and undone; a job still cancelled between two passes is never launched"
  },
  {
   "property": "C11",
   "status": "partial",
   "theorems": [
    "Tomato.Props.C11_snapshot_refused",
    "Tomato.Props.C11_snapshot_written_partial",
    "Tomato.Props.C11_exact",
    "Tomato.Props.C11_refuted"
   ],
   "note": "Refusal proved in full; writing proved for jobs with a folder on record, false otherwise. C11_exact: the outcome in all other cases (raises after writing the snapshots of exactly the requested jobs with lower numbers)."
  },
  {
   "property": "C12",
   "status": "partial",
   "theorems": [
    "Tomato.Props.C12_load_partial",
    "Tomato.Props.C12_load_no_row_partial",
    "Tomato.Props.C12_load_justified",
    "Tomato.Props.C12_refuted"
   ],
   "note": "Proved for pipelines that have a state row; false otherwise (success reported exactly if the pipeline is configured, nothing stored)."
  },
  {
   "property": "C13",
   "status": "partial",
   "theorems": [
    "Tomato.Props.C13_eject_partial",
    "Tomato.Props.C13_eject_no_row",
    "Tomato.Props.C13_eject_justified",
    "Tomato.Props.C13_refuted_interleaved"
   ],
   "note": "eject reads and then updates; interleaved with the scheduler it ejects an occupied pipeline"
  },
  {
   "property": "C14",
   "status": "proved",
   "theorems": [
    "Tomato.Props.C14_ready",
    "Tomato.Props.C14_ready_no_row",
    "Tomato.Props.C14_ready_justified",
    "Tomato.Props.C14_ready_idempotent"
   ],
   "note": ""
  },
  {
   "property": "C15",
   "status": "proved",
   "theorems": [
    "Tomato.Props.C15_occupied"
   ],
   "note": ""
  },
  {
   "property": "C16",
   "status": "proved",
   "theorems": [
    "Tomato.Props.C16_matching"
   ],
   "note": ""
  },
  {
   "property": "C17",
   "status": "proved",
   "theorems": [
    "Tomato.Props.C17_no_double_assignment"
   ],
   "note": ""
  },
  {
   "property": "C18",
   "status": "proved",
   "theorems": [
    "Tomato.Props.C18_launched_once",
    "Tomato.Props.C18_process_once"
   ],
   "note": ""
  },
  {
   "property": "C19",
   "status": "partial",
   "theorems": [
    "Tomato.Props.C19_order",
    "Tomato.Props.C19_first_come_partial",
    "Tomato.Props.C19_refuted"
   ],
   "note": "Within a pass the assignments are made in increasing job id (all executions), and after a completed pass every waiting job with a suitable, available pipeline has been served or lost it to a job with a lower id. C19_refuted: a pass that raises (leftover job folder) leaves the higher ids unserved."
  },
  {
   "property": "C20",
   "status": "partial",
   "theorems": [
    "Tomato.Props.C20_reset_partial",
    "Tomato.Props.C20_reset_exact_partial",
    "Tomato.Props.C20_reset_justified",
    "Tomato.Props.C20_refuted_limit",
    "Tomato.Props.C20_refuted_race"
   ],
   "note": "Exact effect of an undisturbed pass (rows and cmp_reset commands), with ten days for jobs which have not connected, hence as claimed when no job is in limbo between 10 s and 10 days; every reset under any interleaving is justified by what was seen in the pass. Refuted: timedelta(10) is ten days, at no moment between 10 s and 10 days is the pipeline released; and the pipeline manager can reset the pipeline of a live job, because it reads the table once and decides later."
  },
  {
   "property": "C21",
   "status": "partial",
   "theorems": [
    "Tomato.Props.C21_one_job_per_component_partial",
    "Tomato.Props.C21_refuted"
   ],
   "note": "Configuration files in which two pipelines name the same channel are accepted, and two jobs then run on one component (C21_refuted). For files whose entries use different channels the property holds in every reachable state."
  },
  {
   "property": "C22",
   "status": "partial",
   "theorems": [
    "Tomato.Props.C22_finished_stays_partial",
    "Tomato.Props.C22_refuted"
   ],
   "note": "supervision acting on a stale read can turn a completed job into failed"
  },
  {
   "property": "C23",
   "status": "partial",
   "theorems": [
    "Tomato.Props.C23_supervision_partial",
    "Tomato.Props.C23_refuted",
    "Tomato.Props.C23_refuted_stuck"
   ],
   "note": "a cancelled job without folder makes the pass raise"
  },
  {
   "property": "C24",
   "status": "partial",
   "theorems": [
    "Tomato.Props.C24_children_ended_partial",
    "Tomato.Props.C24_refuted"
   ],
   "note": "on POSIX only the children of the job process are ended"
  },
  {
   "property": "C25",
   "status": "partial",
   "theorems": [
    "Tomato.Props.C25_releases_own_pipeline_partial",
    "Tomato.Props.C25_refuted"
   ],
   "note": "release is unconditional: after a reset in between it clears another job"
  },
  {
   "property": "C26",
   "status": "proved",
   "theorems": [
    "Tomato.Props.C26_stop"
   ],
   "note": ""
  },
  {
   "property": "C27",
   "status": "proved",
   "theorems": [
    "Tomato.Props.C27_reload_protects_running"
   ],
   "note": "Hypothesis NamesMatch (keys of the pipeline table are the pipeline names) holds for every parsed device file."
  },
  {
   "property": "C28",
   "status": "partial",
   "theorems": [
    "Tomato.Props.C28_reload_uses_new_configuration_partial",
    "Tomato.Props.C28_reload_driver_settings",
    "Tomato.Props.C28_refuted"
   ],
   "note": "False of the code: rows for new pipelines and drivers are not created on reload."
  },
  {
   "property": "C29",
   "status": "partial",
   "theorems": [
    "Tomato.Props.C29_answers_partial",
    "Tomato.Props.C29_refuted_stale",
    "Tomato.Props.C29_refuted_crash"
   ],
   "note": "Proved for sequences of proper messages; false for unknown commands."
  },
  {
   "property": "C30",
   "status": "proved",
   "theorems": [
    "Tomato.Props.C30_bootstrap"
   ],
   "note": ""
  },
  {
   "property": "C31",
   "status": "partial",
   "theorems": [
    "Tomato.Props.C31_setup_partial",
    "Tomato.Props.C31_refuted",
    "Tomato.Props.C31_refuted_interrupted",
    "Tomato.Props.C31_without_assertions",
    "Tomato.Props.C31_refuted_endless",
    "Tomato.Props.C31_refuted_interrupted_upgrade"
   ],
   "note": "the assertion before the upgrade loop makes the upgrade dead code"
  },
  {
   "property": "C32",
   "status": "proved",
   "theorems": [
    "Tomato.Props.C32_closed",
    "Tomato.Props.namesMatch_parsed"
   ],
   "note": ""
  },
  {
   "property": "C33",
   "status": "partial",
   "theorems": [
    "Tomato.Props.C33_names_identify_partial",
    "Tomato.Props.C33_refuted"
   ],
   "note": "false for driver names with ( or channels with a comma"
  },
  {
   "property": "C34",
   "status": "proved",
   "theorems": [
    "Tomato.Props.C34_wildcards",
    "Tomato.Props.fill_base"
   ],
   "note": ""
  },
  {
   "property": "C35",
   "status": "proved",
   "theorems": [
    "Tomato.Props.C35_accepted_iff_consistent"
   ],
   "note": ""
  },
  {
   "property": "C36",
   "status": "partial",
   "theorems": [
    "Tomato.Props.C36_components_used_partial",
    "Tomato.Props.C36_refuted"
   ],
   "note": "false for files repeating a role or a pipeline name"
  },
  {
   "property": "C37",
   "status": "proved",
   "theorems": [
    "Tomato.Props.C37_split"
   ],
   "note": ""
  },
  {
   "property": "C38",
   "status": "partial",
   "theorems": [
    "Tomato.Props.C38_order",
    "Tomato.Props.C38_ready",
    "Tomato.Props.C38_previous_partial",
    "Tomato.Props.C38_refuted"
   ],
   "note": "order and absence of gaps proved; a task told to stop is not waited for"
  },
  {
   "property": "C39",
   "status": "partial",
   "theorems": [
    "Tomato.Props.C39_all_sent_partial",
    "Tomato.Props.C39_at_most_two",
    "Tomato.Props.C39_refuted",
    "Tomato.Props.C39_refuted_race"
   ],
   "note": "holds with at most two tasks per component and no crash seen late; violated by a third task and by a race in the supervising loop"
  },
  {
   "property": "C40",
   "status": "partial",
   "theorems": [
    "Tomato.Props.C40_start_partial",
    "Tomato.Props.C40_unconditional",
    "Tomato.Props.C40_refuted"
   ],
   "note": "\"taken up by a thread\" instead of \"started on a component\"; two tasks waiting for each other both start"
  },
  {
   "property": "C41",
   "status": "partial",
   "theorems": [
    "Tomato.Props.C41_stop_partial",
    "Tomato.Props.C41_told",
    "Tomato.Props.C41_refuted"
   ],
   "note": "\"taken up by a thread\" instead of \"started\""
  },
  {
   "property": "C42",
   "status": "partial",
   "theorems": [
    "Tomato.Props.C42_seen",
    "Tomato.Props.C42_released_partial",
    "Tomato.Props.C42_starts_partial",
    "Tomato.Props.C42_refuted"
   ],
   "note": "In every fair infinite execution, a waiting task is sent to its component (or that one does not answer) if the awaited one goes on until it is noticed; a short one is missed for ever"
  },
  {
   "property": "C43",
   "status": "partial",
   "theorems": [
    "Tomato.Props.C43_stored_partial",
    "Tomato.Props.C43_refuted"
   ],
   "note": "content and order proved for every moment outside a write; a crash within a write loses everything stored before"
  },
  {
   "property": "C44",
   "status": "partial",
   "theorems": [
    "Tomato.Props.C44_reset_partial",
    "Tomato.Props.C44_refuted_two_tasks",
    "Tomato.Props.C44_refuted_failure"
   ],
   "note": "holds for one task per component without failure"
  },
  {
   "property": "C45",
   "status": "partial",
   "theorems": [
    "Tomato.Props.C45_only_then",
    "Tomato.Props.C45_error_partial",
    "Tomato.Props.C45_refuted_short_task"
   ],
   "note": "\"only for this reason\" proved; \"ends as ce\" except for the race of C39; tasks that end before they are seen running give ce"
  },
  {
   "property": "C46",
   "status": "proved",
   "theorems": [
    "Tomato.Props.C46_returns",
    "Tomato.Props.C46_no_retries_diverges"
   ],
   "note": "retries >= 1; for retries <= 0 the loop never ends without an answer"
  },
  {
   "property": "C47",
   "status": "partial",
   "theorems": [
    "Tomato.Props.C47_exactly_once_partial",
    "Tomato.Props.C47_executions",
    "Tomato.Props.C47_refuted",
    "Tomato.Props.C47_refuted_driver"
   ],
   "note": "holds if no attempt was executed without a timely answer; otherwise executed several times, data lost"
  },
  {
   "property": "C48",
   "status": "partial",
   "theorems": [
    "Tomato.Props.C48_validate_exact_partial",
    "Tomato.Props.C48_validate_no_params",
    "Tomato.Props.C48_refuted",
    "Tomato.Props.C48_refuted_interface_2_0"
   ],
   "note": "a value that is not a number passes all limits; interface 2.0 checks neither the options nor None"
  },
  {
   "property": "C49",
   "status": "proved",
   "theorems": [
    "Tomato.Props.C49_accepted_executable",
    "Tomato.Props.C49_refuted_interface_2_0"
   ],
   "note": "interface 2.1 with coerce_val on set_attr; interface 2.0 has no coerce_val, and accepts values which the same check rejects"
  },
  {
   "property": "C50",
   "status": "partial",
   "theorems": [
    "Tomato.Props.C50_limits_partial",
    "Tomato.Props.C50_task_limits_partial",
    "Tomato.Props.C50_nan",
    "Tomato.Props.C50_refuted"
   ],
   "note": "proved for values which are numbers; not-a-number passes, whatever the limits (C50_nan)"
  },
  {
   "property": "C51",
   "status": "partial",
   "theorems": [
    "Tomato.Props.C51_fifo",
    "Tomato.Props.C51_one_at_a_time",
    "Tomato.Props.C51_measures_current",
    "Tomato.Props.C51_no_deadlock",
    "Tomato.Props.C51_refuted_dead_worker",
    "Tomato.Props.C51_refuted_interface_2_0",
    "Tomato.Props.C51_refuted_interface_2_0_reset",
    "Tomato.Props.C51_interface_2_0_start_idle_partial"
   ],
   "note": "order and exclusion hold for interface 2.1; after an exception the worker is gone and accepted tasks are never executed; interface 2.0 violates both"
  },
  {
   "property": "C52",
   "status": "proved",
   "theorems": [
    "Tomato.Props.C52_exactly_once",
    "Tomato.Props.C52_reply"
   ],
   "note": "interface 2.1"
  },
  {
   "property": "C53",
   "status": "partial",
   "theorems": [
    "Tomato.Props.C53_refused_partial",
    "Tomato.Props.C53_never_concurrent",
    "Tomato.Props.C53_data_unchanged",
    "Tomato.Props.C53_refuted",
    "Tomato.Props.C53_refuted_interface_2_0"
   ],
   "note": "a measurement can be accepted in the moment between taking a task and announcing it"
  },
  {
   "property": "C54",
   "status": "partial",
   "theorems": [
    "Tomato.Props.C54_stop_partial",
    "Tomato.Props.C54_refuted",
    "Tomato.Props.C54_refuted_interface_2_0",
    "Tomato.Props.C54_interface_2_0_no_effect"
   ],
   "note": "a stop during the preparation of the task is lost; in interface 2.0 task_stop has no effect at all"
  },
  {
   "property": "C55",
   "status": "partial",
   "theorems": [
    "Tomato.Props.C55_unregistered_partial",
    "Tomato.Props.C55_refuted_interface_2_0",
    "Tomato.Props.C55_refuted_unhashable",
    "Tomato.Props.C55_teardown_partial"
   ],
   "note": "interface 2.1 with hashable addresses; interface 2.0 always violates it"
  },
  {
   "property": "C56",
   "status": "partial",
   "theorems": [
    "Tomato.Props.C56_survives_partial",
    "Tomato.Props.C56_rejected_partial",
    "Tomato.Props.C56_keeps_running_partial",
    "Tomato.Props.C56_deadly_exact",
    "Tomato.Props.C56_refuted"
   ],
   "note": "exact list of the messages that bring the driver down"
  },
  {
   "property": "C57",
   "status": "partial",
   "theorems": [
    "Tomato.Props.C57_bounded_partial",
    "Tomato.Props.C57_success_partial",
    "Tomato.Props.C57_rec",
    "Tomato.Props.C57_refuted"
   ],
   "note": "automatic registrations only; registrations by hand re-enable unlimited tries"
  },
  {
   "property": "C58",
   "status": "partial",
   "theorems": [
    "Tomato.Props.C58_asks_partial",
    "Tomato.Props.C58_only",
    "Tomato.Props.C58_refuted"
   ],
   "note": "C58_only: only drivers which report no component are asked; so the claim holds only when no component at all is registered; one registered component silences the manager for ever"
  },
  {
   "property": "C59",
   "status": "proved",
   "theorems": [
    "Tomato.Props.C59_spawned_at_most_three_times"
   ],
   "note": "complete passes of the manager; counts the attempts since the driver last came up"
  },
  {
   "property": "C60",
   "status": "partial",
   "theorems": [
    "Tomato.Props.C60_pid_iff_port",
    "Tomato.Props.C60_stop_partial",
    "Tomato.Props.C60_refuted"
   ],
   "note": "first part proved for every interleaving; deletion always fails and ends the manager"
  },
  {
   "property": "C61",
   "status": "partial",
   "theorems": [
    "Tomato.Props.C61_interval_partial",
    "Tomato.Props.C61_set_partial",
    "Tomato.Props.C61_none",
    "Tomato.Props.C61_happens",
    "Tomato.Props.C61_refuted"
   ],
   "note": "constant interval (C61_set_partial: from its change by a message on, until the next change) and no exceptions in measurements"
  },
  {
   "property": "C62",
   "status": "partial",
   "theorems": [
    "Tomato.Props.C62_modify_partial",
    "Tomato.Props.C62_exact_partial",
    "Tomato.Props.C62_unknown",
    "Tomato.Props.C62_refuted_reload"
   ],
   "note": "for a configuration that does not change during the command; with a reload in between another component is asked"
  },
  {
   "property": "C63",
   "status": "proved",
   "theorems": [
    "Tomato.Props.C63_get",
    "Tomato.Props.C63_get_other"
   ],
   "note": ""
  },
  {
   "property": "C64",
   "status": "proved",
   "theorems": [
    "Tomato.Props.C64_init_keeps",
    "Tomato.Props.C64_init_creates",
    "Tomato.Props.C64_init_succeeds"
   ],
   "note": ""
  },
  {
   "property": "C65",
   "status": "partial",
   "theorems": [
    "Tomato.Props.C65_tables_partial",
    "Tomato.Props.C65_refuted"
   ],
   "note": "an empty table raises ValueError"
  },
  {
   "property": "C66",
   "status": "proved",
   "theorems": [
    "Tomato.Props.C66_log_level"
   ],
   "note": ""
  },
  {
   "property": "C67",
   "status": "partial",
   "theorems": [
    "Tomato.Props.C67_folders",
    "Tomato.Props.C67_merges_own_folder",
    "Tomato.Props.C67_results_partial",
    "Tomato.Props.C67_refuted"
   ],
   "note": "Folders are never shared and data are only merged from the own folder (all executions in which job processes read the jobdata.json written for them). Result files: a user who chooses the prefix results.1 overwrites the result of job 1 whose user chose nothing (C67_refuted); for plain prefixes that do not imitate the default names the property holds."
  },
  {
   "property": "C68",
   "status": "proved",
   "theorems": [
    "Tomato.Props.C68_groups",
    "Tomato.Props.C68_stored",
    "Tomato.Props.C68_result"
   ],
   "note": "Any tidy folder; any sequence of stores from an empty folder; and for the interleaved job: when the main loop has ended, merging succeeds and gives exactly the delivered data per role."
  },
  {
   "property": "C69",
   "status": "partial",
   "theorems": [
    "Tomato.Props.C69_upgrade_partial",
    "Tomato.Props.C69_refuted"
   ],
   "note": "a payload above the latest supported version is queued unchanged; termination needs a finite chain of versions in dgbowl_schemas"
  },
  {
   "property": "C70",
   "status": "partial",
   "theorems": [
    "Tomato.Props.C70_pass_partial",
    "Tomato.Props.C70_eventually_partial",
    "Tomato.Props.C70_refuted"
   ],
   "note": "C70_refuted: a cancellation at the wrong moment ends the job manager for good. Positive part: an undisturbed pass in a healthy state never fails, and a waiting job with an available suitable pipeline is passed over at most as often as there are lower ids before it is launched, whatever happens between those passes."
  },
  {
   "property": "C71",
   "status": "partial",
   "theorems": [
    "Tomato.Props.C71_stored_partial",
    "Tomato.Props.C71_prefix_partial",
    "Tomato.Props.C71_accounted_partial",
    "Tomato.Props.C71_refuted"
   ],
   "note": "interface 2.1, one component, no other user of it; a task that is told to stop can lose its last sample (C71_refuted)"
  },
  {
   "property": "C72",
   "status": "partial",
   "theorems": [
    "Tomato.Props.C72_own_partial",
    "Tomato.Props.C72_refuted"
   ],
   "note": "holds if the component is at rest with an empty cache when the job begins; data left by an earlier job that did not reset the component are stored for the next job (C72_refuted)"
  },
  {
   "property": "C73",
   "status": "partial",
   "theorems": [
    "Tomato.Props.C73_launched_once_partial",
    "Tomato.Props.C73_process_once_partial",
    "Tomato.Props.C73_pipeline_refuted",
    "Tomato.Props.C73_manager_refuted"
   ],
   "note": "No job is launched twice, with any number of daemons. False: two jobs can be launched on one pipeline, and the slower job manager dies with FileExistsError."
  },
  {
   "property": "C74",
   "status": "partial",
   "theorems": [
    "Tomato.Props.C74_exits_partial",
    "Tomato.Props.C74_only_when_asked_partial",
    "Tomato.Props.C74_refuted"
   ],
   "note": "Exits under fairness if the drivers answer their requests and no message ends the main loop with an exception; exits only if asked and after all threads ended. A recorded driver that does not answer keeps the daemon alive for ever (C74_refuted)."
  },
  {
   "property": "C75",
   "status": "partial",
   "theorems": [
    "Tomato.Props.C75_drivers_stopped_partial",
    "Tomato.Props.C75_refuted",
    "Tomato.Props.C75_forgotten_refuted",
    "Tomato.Props.C75_crashed_refuted"
   ],
   "note": "Every driver recorded as running when the driver manager reads the table for the last time is told to stop, unless an exception ends the manager. Not stopped: drivers just started, drivers that once answered too late, all drivers if the manager died."
  },
  {
   "property": "C76",
   "status": "partial",
   "theorems": [
    "Tomato.Props.C76_no_launch_partial",
    "Tomato.Props.C76_refuted"
   ],
   "note": "At most one more pass of the job manager begins; none is launched if it is between two passes. One more job may be launched after the reply (C76_refuted)."
  },
  {
   "property": "C77",
   "status": "partial",
   "theorems": [
    "Tomato.Props.C77_respawn_partial",
    "Tomato.Props.C77_refuted_reboot"
   ],
   "note": "Two passes suffice if the clock was not reset and every driver in the table is configured. After a reboot of the machine nothing is checked or started until the uptime exceeds the old times in the table (C77_refuted_reboot)."
  },
  {
   "property": "C78",
   "status": "partial",
   "theorems": [
    "Tomato.Props.C78_restart_partial",
    "Tomato.Props.C78_refuted"
   ],
   "note": "Holds for new drivers and for drivers with fewer than three attempts on record. After three failed attempts no number of daemon restarts starts the driver again (C78_refuted)."
  },
  {
   "property": "C79",
   "status": "partial",
   "theorems": [
    "Tomato.Props.C79_spawn_justified_partial",
    "Tomato.Props.C79_refuted"
   ],
   "note": "Only what is on record is checked: a launch happens only if no process was on record in this pass. A running driver that registers its devices slowly is taken off the record and a second process is started; the first one is never stopped (C79_refuted)."
  },
  {
   "property": "C80",
   "status": "proved",
   "theorems": [
    "Tomato.Props.C80_schedule",
    "Tomato.Props.C80_none"
   ],
   "note": "the wanted number is defined by a fold over the clock readings"
  },
  {
   "property": "C81",
   "status": "proved",
   "theorems": [
    "Tomato.Props.C81_content",
    "Tomato.Props.C81_growing"
   ],
   "note": "loading one file is one step; a file met while it is being written ends the main loop instead (C82)"
  },
  {
   "property": "C82",
   "status": "partial",
   "theorems": [
    "Tomato.Props.C82_undisturbed_partial",
    "Tomato.Props.C82_refuted",
    "Tomato.Props.C82_refuted_record"
   ],
   "note": "Proved: refinement of the job without snapshots, and the main thread dies only on a file that is being written. If it does, the end of the job is never noticed, waiting tasks never start, the record stays \"running\"."
  },
  {
   "property": "C83",
   "status": "partial",
   "theorems": [
    "Tomato.Props.C83_default_partial",
    "Tomato.Props.C83_exact",
    "Tomato.Props.C83_refuted"
   ],
   "note": "Only right if both folders are the same (C83_exact): settings.snapshot.path is never used, the snapshots go to the output folder."
  },
  {
   "property": "C84",
   "status": "partial",
   "theorems": [
    "Tomato.Props.C84_ports_partial",
    "Tomato.Props.C84_refuted",
    "Tomato.Props.C84_refuted_race"
   ],
   "note": "The job waits for all drivers in the table: one that failed to start three times blocks every job for ever. The check and the start of the threads are not atomic."
  },
  {
   "property": "C85",
   "status": "partial",
   "theorems": [
    "Tomato.Props.C85_moment_partial",
    "Tomato.Props.C85_readonly",
    "Tomato.Props.C85_absent",
    "Tomato.Props.C85_answers_partial",
    "Tomato.Props.C85_refuted_torn",
    "Tomato.Props.C85_refuted_reload",
    "Tomato.Props.C85_refuted_driver",
    "Tomato.Props.C85_refuted_empty"
   ],
   "note": "Every row is right for some moment of the query, under arbitrary interference; rows of different pipelines may belong to different moments. One missing row, one driver without port or one silent driver spoils the whole query."
  },
  {
   "property": "C86",
   "status": "partial",
   "theorems": [
    "Tomato.Props.C86_one",
    "Tomato.Props.C86_launch",
    "Tomato.Props.C86_occupied",
    "Tomato.Props.C86_settings",
    "Tomato.Props.C86_answer_partial",
    "Tomato.Props.C86_own_partial",
    "Tomato.Props.C86_refuted_other",
    "Tomato.Props.C86_refuted_slow",
    "Tomato.Props.C86_refuted_probe"
   ],
   "note": "Proved for all interleavings: one daemon per port, launches match the result, refusal without effect. With two concurrent starts, success may be reported for the daemon of the other one; a slow daemon is reported as not running; testing the port by binding it kills a daemon that is beginning."
  },
  {
   "property": "C87",
   "status": "partial",
   "theorems": [
    "Tomato.Props.C87_closed_partial",
    "Tomato.Props.C87_down_partial",
    "Tomato.Props.C87_refuted_hang",
    "Tomato.Props.C87_refuted_pending",
    "Tomato.Props.C87_refuted_early"
   ],
   "note": "Proved: a reported success means that the running daemon has been told to stop, and never serves again. stop has no time-out for its request: it may wait for ever, or stop a later daemon; success is reported before the port is free."
  },
  {
   "property": "C88",
   "status": "partial",
   "theorems": [
    "Tomato.Props.C88_partial",
    "Tomato.Props.C88_refuted"
   ],
   "note": "The daemon always reads its own folder again; the message names the folder of the command."
  },
  {
   "property": "C89",
   "status": "partial",
   "theorems": [
    "Tomato.Props.C89_partial",
    "Tomato.Props.C89_window_partial",
    "Tomato.Props.C89_folder",
    "Tomato.Props.C89_pipeline",
    "Tomato.Props.C89_refuted_folder",
    "Tomato.Props.C89_refuted_pipeline"
   ],
   "note": "Proved for all executions in which the job manager is not killed between making the folder of a job and starting its process. A kill inside this window is fatal for ever: the left-over folder keeps the job from being launched in every continuation (C89_folder), the left-over reservation keeps the pipeline occupied in every continuation (C89_pipeline); both are reached (refuted)."
  },
  {
   "property": "C90",
   "status": "partial",
   "theorems": [
    "Tomato.Props.C90_partial",
    "Tomato.Props.C90_refuted"
   ],
   "note": "Proved for configurations with a section for repositories in which every pipeline is found under its name. Without the section (settings of an earlier version) the pass dies after making the folder and the job is never launched, in any continuation."
  },
  {
   "property": "C91",
   "status": "proved",
   "theorems": [
    "Tomato.Props.C91_states",
    "Tomato.Props.C91_steps",
    "Tomato.Props.C91_consistent"
   ],
   "note": "The system with files refines the system without: every state and step property of the latter carries over (C91_states, C91_steps), spelt out for the main invariants in C91_consistent."
  },
  {
   "property": "C92",
   "status": "partial",
   "theorems": [
    "Tomato.Props.C92_alone",
    "Tomato.Props.C92_partial",
    "Tomato.Props.C92_spurious_partial",
    "Tomato.Props.C92_refuted"
   ],
   "note": "Proved alone (exact result), and interleaved with others that make folders above the output folder, or any of them if an error is allowed only when the folder is there. Two jobs with the same new folder that start together: the second dies with FileExistsError although the folder is there."
  },
  {
   "property": "C93",
   "status": "partial",
   "theorems": [
    "Tomato.Props.C93_only",
    "Tomato.Props.C93_place",
    "Tomato.Props.C93_partial",
    "Tomato.Props.C93_refuted"
   ],
   "note": "All changes of files by job processes, in all executions (C93_only). The place is right for absolute or missing output folders; a relative one is resolved in the working directory of the daemon."
  },
  {
   "property": "C94",
   "status": "partial",
   "theorems": [
    "Tomato.Props.C94_repos",
    "Tomato.Props.C94_partial",
    "Tomato.Props.C94_content",
    "Tomato.Props.C94_refuted"
   ],
   "note": "The content of archives in all executions; their presence for a process that runs alone with unchanged settings. A repository removed from the settings between submission and launch: no archive, without an error."
  },
  {
   "property": "C95",
   "status": "partial",
   "theorems": [
    "Tomato.Props.C95_partial",
    "Tomato.Props.C95_refuted"
   ],
   "note": "Proved for a process that runs alone with nothing in the way of its files. The archive is written before the status: if it can not be written, the job is recorded as failed although all tasks succeeded and the results are stored."
  },
  {
   "property": "C96",
   "status": "partial",
   "theorems": [
    "Tomato.Props.C96_merged",
    "Tomato.Props.C96_partial",
    "Tomato.Props.C96_refuted"
   ],
   "note": "Proved for completed jobs in all executions. A job whose process dies is recorded as failed and its data is never merged."
  },
  {
   "property": "C97",
   "status": "proved",
   "theorems": [
    "Tomato.Props.C97_states",
    "Tomato.Props.C97_steps",
    "Tomato.Props.C97_consistent"
   ],
   "note": "Refinement: every state and step property of the system without faults carries over to the one with arbitrary failures; the four consequences are spelled out."
  },
  {
   "property": "C98",
   "status": "partial",
   "theorems": [
    "Tomato.Props.C98_cause_partial",
    "Tomato.Props.C98_never_restarted",
    "Tomato.Props.C98_refuted"
   ],
   "note": "A manager ends only by an exception or because of a stop, and is never restarted. With a job in rd that has no folder, the job manager dies; the daemon keeps on reporting that it is running."
  },
  {
   "property": "C99",
   "status": "partial",
   "theorems": [
    "Tomato.Props.C99_ends_partial",
    "Tomato.Props.C99_unconditional_partial",
    "Tomato.Props.C99_refuted"
   ],
   "note": "Proved for all fair schedules if the threads that wait for a task are told of it, in particular for jobs without start conditions. A job with a task that is to start with one the job does not have never ends."
  },
  {
   "property": "C100",
   "status": "partial",
   "theorems": [
    "Tomato.Props.C100_each",
    "Tomato.Props.C100_partial",
    "Tomato.Props.C100_refused",
    "Tomato.Props.C100_refuted"
   ],
   "note": "Proved for all executions in which reloads do not change the path of the database; each database on its own keeps all guarantees. A reload to another database is accepted while a job is running: the daemon then does not know that job, and gives its pipeline to another one."
  },
  {
   "property": "C101",
   "status": "partial",
   "theorems": [
    "Tomato.Props.C101_frozen",
    "Tomato.Props.C101_origin",
    "Tomato.Props.C101_settings_partial",
    "Tomato.Props.C101_registered",
    "Tomato.Props.C101_own",
    "Tomato.Props.C101_refuted",
    "Tomato.Props.C101_refuted_components"
   ],
   "note": "All configured components are registered after a successful answer to register. Settings are read once, when the process starts: proved up to date as long as no reload changes them while the driver has a process; refuted otherwise, as is the removal of components."
  },
  {
   "property": "C102",
   "status": "partial",
   "theorems": [
    "Tomato.Props.C102_promise_partial",
    "Tomato.Props.C102_refuted"
   ],
   "note": "Proved: whenever the status arises, in any execution, a suitable pipeline was found in that very pass. It is not taken back: after a reload without pipelines the job stays `qw`."
  },
  {
   "property": "C103",
   "status": "partial",
   "theorems": [
    "Tomato.Props.C103_complete_partial",
    "Tomato.Props.C103_refuted"
   ],
   "note": "holds for components at rest with at most two tasks, not told to stop, if no thread crashes unnoticed and no function of the device raises; an exception in the device ends the task silently and the job is reported complete (C103_refuted); a third task and a late crash: see C39, stopped tasks: see C71"
  },
  {
   "property": "C104",
   "status": "partial",
   "theorems": [
    "Tomato.Props.C104_left_alone",
    "Tomato.Props.C104_interface_2_0_partial",
    "Tomato.Props.C104_refuted_interface_2_0",
    "Tomato.Props.C104_refuted_interface_2_0_prepare"
   ],
   "note": "Proved for interface 2.1. Interface 2.0: proved as long as no task is started nor stopped in the meantime and the component is not reset before its parameters are set; `task_stop` makes a failed task go on, and a failure after a reset is noted down at the wrong thread."
  },
  {
   "property": "C105",
   "status": "partial",
   "theorems": [
    "Tomato.Props.C105_partial",
    "Tomato.Props.C105_daemon",
    "Tomato.Props.C105_refuted",
    "Tomato.Props.C105_refuted_silent"
   ],
   "note": "Proved for all paths without single quotes and control characters. A folder with a single quote in its name yields settings that can not be read (C105_refuted), or which silently name another folder (C105_refuted_silent)."
  },
  {
   "property": "C106",
   "status": "partial",
   "theorems": [
    "Tomato.Props.C106_partial",
    "Tomato.Props.C106_reply",
    "Tomato.Props.C106_refuted"
   ],
   "note": "Proved: a reported success means that the component is registered, and failures of the device are reported as failures. The daemon has no command `component`, so that after a successful registration the user is sent the reply of the daemon to the previous message it received (C106_reply): never the capabilities, and a failure after e.g. a refused reload (C106_refuted)."
  },
  {
   "property": "C107",
   "status": "partial",
   "theorems": [
    "Tomato.Props.C107_stored",
    "Tomato.Props.C107_partial",
    "Tomato.Props.C107_kill_partial",
    "Tomato.Props.C107_asked",
    "Tomato.Props.C107_mistaken",
    "Tomato.Props.C107_refuted",
    "Tomato.Props.C107_refuted_kill"
   ],
   "note": "Proved in all executions: a process id on record was stored by a process of that job, and children of a process are terminated only if its id was on record, in the same pass, for a job being cancelled. The rest is proved if no process id is reused (C107_partial, C107_kill_partial). The code identifies processes by their id only: after a power cut another program can have the id of a dead job; the job then stays `r` and keeps the pipeline as long as that program runs (C107_mistaken, C107_refuted), and cancelling the job terminates children of that program (C107_refuted_kill)."
  },
  {
   "property": "C108",
   "status": "partial",
   "theorems": [
    "Tomato.Props.C108_partial",
    "Tomato.Props.C108_apart_partial",
    "Tomato.Props.C108_hardware_partial",
    "Tomato.Props.C108_refuted",
    "Tomato.Props.C108_refuted_roles"
   ],
   "note": "Proved for any number of threads if no two of them have the same component, which holds if the entries of the file of devices, and the roles within an entry, use different channels. The code accepts files in which they do not; then data of another job with an equal task (C108_refuted) or of another role of the same job (C108_refuted_roles) are stored in the wrong file."
  },
  {
   "property": "C109",
   "status": "partial",
   "theorems": [
    "Tomato.Props.C109_serving_iff",
    "Tomato.Props.C109_announced",
    "Tomato.Props.C109_otherwise",
    "Tomato.Props.C109_own_package_partial",
    "Tomato.Props.C109_same_package_iff",
    "Tomato.Props.C109_refuted"
   ],
   "note": "Proved, except that drivers have different packages: names that differ in hyphens and underscores only stand for the same package (C109_refuted); proved for names without hyphens; C109_same_package_iff: exactly which names share a package."
  },
  {
   "property": "C110",
   "status": "partial",
   "theorems": [
    "Tomato.Props.C110_each",
    "Tomato.Props.C110_partial",
    "Tomato.Props.C110_teardown",
    "Tomato.Props.C110_out_of_reach",
    "Tomato.Props.C110_refuted",
    "Tomato.Props.C110_refuted_two_workers"
   ],
   "note": "holds if a component is registered again only while it has nothing to do, or after a teardown; otherwise the old worker goes on with its task, out of reach of all commands, next to the new one, and its data are lost"
  },
  {
   "property": "C111",
   "status": "partial",
   "theorems": [
    "Tomato.Props.C111_never_early",
    "Tomato.Props.C111_ends",
    "Tomato.Props.C111_samples_partial",
    "Tomato.Props.C111_polls_partial",
    "Tomato.Props.C111_polls_apart",
    "Tomato.Props.C111_snapshots_partial",
    "Tomato.Props.C111_refuted_fast",
    "Tomato.Props.C111_refuted_slow",
    "Tomato.Props.C111_refuted_snapshots"
   ],
   "note": "never early, and the end of a task, are proved without conditions. On time and the exact number of samples are proved for intervals of at least 20 ms (0.2 s for polling, 1 s plus the work for snapshots) if the work of a turn takes half of the interval at most; the loops sleep for 10 ms (0.1 s, up to 1 s), so that shorter intervals are not kept, and after a slow measurement the missed samples are taken in quick succession"
  },
  {
   "property": "C112",
   "status": "partial",
   "theorems": [
    "Tomato.Props.C112_in_order",
    "Tomato.Props.C112_reset",
    "Tomato.Props.C112_partial",
    "Tomato.Props.C112_data_partial",
    "Tomato.Props.C112_ready_again_partial",
    "Tomato.Props.C112_refuted",
    "Tomato.Props.C112_refuted_in_the_middle"
   ],
   "note": "proved for components which are asked for one thing at a time (a task or a measurement only when the thread of the previous one has ended); in general the component reports ready before it has prepared the thread of the next task, which then ends the driver process, and while it executes a task, after a measurement accepted right after it"
  },
  {
   "property": "C113",
   "status": "partial",
   "theorems": [
    "Tomato.Props.C113_partial",
    "Tomato.Props.C113_forever",
    "Tomato.Props.C113_blocks",
    "Tomato.Props.C113_not_again",
    "Tomato.Props.C113_refuted",
    "Tomato.Props.C113_refuted_blocks"
   ],
   "note": "proved for processes which have connected before they ended. manage_running only asks for jobs with a process id, so that its branches for jobs which have not connected are dead code: such a job never gets an outcome (C113_forever), and once its pipeline is free again no pass of the job manager comes to its end any more, except by giving the pipeline to a job with a lower id (C113_blocks)"
  },
  {
   "property": "C114",
   "status": "partial",
   "theorems": [
    "Tomato.Props.C114_partial",
    "Tomato.Props.C114_rows_partial",
    "Tomato.Props.C114_select_partial",
    "Tomato.Props.C114_system_partial",
    "Tomato.Props.C114_names_partial",
    "Tomato.Props.C114_odd_refuted",
    "Tomato.Props.C114_load_refuted",
    "Tomato.Props.C114_driver_refuted",
    "Tomato.Props.C114_launch_refuted",
    "Tomato.Props.C114_doubled_refuted",
    "Tomato.Props.C114_refuted"
   ],
   "note": "proved for names without single quotes: the texts of all statements, read character by character, do what the model of the tables says, and so do all executions of the system if the configured names are without quotes. Refuted for names with quotes: with an odd number of them every change raises OperationalError (loading fails, the driver manager and the job manager end), doubled quotes address another row, and other names reach all rows"
  },
  {
   "property": "C115",
   "status": "proved",
   "theorems": [
    "Tomato.Props.C115_exact"
   ],
   "note": "Exactly the documents that describe a consistent device file are accepted; only pollrate may be given in another form."
  },
  {
   "property": "C116",
   "status": "partial",
   "theorems": [
    "Tomato.Props.C116_started",
    "Tomato.Props.C116_accepted",
    "Tomato.Props.C116_reload_exact",
    "Tomato.Props.C116_stop_exact",
    "Tomato.Props.C116_partial",
    "Tomato.Props.C116_passes",
    "Tomato.Props.C116_stuck",
    "Tomato.Props.C116_refuted",
    "Tomato.Props.C116_refuted_late",
    "Tomato.Props.C116_refuted_driver"
   ],
   "note": "Proved if all settings which are found when they are read are complete; C116_passes: exactly which entries each pass needs; C116_accepted: exactly which files are accepted; C116_reload_exact: exactly when reload succeeds and when it ends the daemon. reload accepts settings without the sections jobs, logdir, repositories: the managers then end with KeyError, and the settings can not be corrected any more (C116_stuck): every later reload or stop ends the daemon."
  },
  {
   "property": "C117",
   "status": "partial",
   "theorems": [
    "Tomato.Props.C117_held",
    "Tomato.Props.C117_origin",
    "Tomato.Props.C117_exact",
    "Tomato.Props.C117_partial",
    "Tomato.Props.C117_threads",
    "Tomato.Props.C117_refuted"
   ],
   "note": "Proved from the assignment on (C117_held: whatever is reloaded while the pipeline has the job, the pipeline is kept), and from the beginning of the pass if the configuration was not changed before the assignment; C117_exact: this is the exact condition. Refuted: a reload after the beginning of the pass may remove the pipeline that the pass then gives to a job; the job process, the pipeline manager and, at the next reload, the daemon end with KeyError."
  },
  {
   "property": "C118",
   "status": "partial",
   "theorems": [
    "Tomato.Props.C118_partial",
    "Tomato.Props.C118_stored_partial",
    "Tomato.Props.C118_values_partial",
    "Tomato.Props.C118_fails_exactly",
    "Tomato.Props.C118_refuted",
    "Tomato.Props.C118_refuted_constant",
    "Tomato.Props.C118_refuted_missing"
   ],
   "note": "Proved with all names, times, values and units for measurements of one kind (each variable with one unit, and values without the dimension uts the same in all), for all moments of fetching; without a condition on the units, times, names and values are exact and the unit is that of the first measurement (C118_values_partial). C118_fails_exactly: when a sample ends the thread of the component. Refuted: 20 degC measured after 300 K is stored as 20 K; a value without the dimension uts that changes between two requests ends the thread and loses all later samples; one that is left out is stored although it was not measured."
  },
  {
   "property": "C119",
   "status": "partial",
   "theorems": [
    "Tomato.Props.C119_partial",
    "Tomato.Props.C119_ends",
    "Tomato.Props.C119_refuted"
   ],
   "note": "Proved: each device ever created is reset before the process is gone, with nothing cut off and nothing taken up after its reset; C119_ends: the process can always go on, unless a measurement hangs, and is gone after at most 39 n + 2 steps of the main thread and of the workers it waits for. Refuted: the components are stopped one after the other, so while a measurement of the first one does not return, the second one goes on with its task after stop was answered, as long as one likes. Missing: quit of interface 2.0 (join with a timeout), a process which is killed, and functions of ModelDevice overridden by the driver."
  },
  {
   "property": "C120",
   "status": "partial",
   "theorems": [
    "Tomato.Props.C120_partial",
    "Tomato.Props.C120_exact",
    "Tomato.Props.C120_message_ends",
    "Tomato.Props.C120_refuted"
   ],
   "note": "Proved if the interval of idle measurements in the settings is a number, null or missing: then only a message other than settings can end the process (C56 tells which). C120_exact: with other settings a process that is left alone ends with a TypeError within two turns, and with these it never does. Refuted: the interval is a text."
  },
  {
   "property": "C121",
   "status": "partial",
   "theorems": [
    "Tomato.Props.C121_load",
    "Tomato.Props.C121_eject",
    "Tomato.Props.C121_ready",
    "Tomato.Props.C121_told_partial",
    "Tomato.Props.C121_refuted"
   ],
   "note": "the row reported is the one last seen, in all interleavings, and a refusal is explained by it; after a success the row shows what was asked for if no other program interferes between the update and the last look, false otherwise"
  },
  {
   "property": "C122",
   "status": "partial",
   "theorems": [
    "Tomato.Props.C122_exact",
    "Tomato.Props.C122_partial",
    "Tomato.Props.C122_refuted"
   ],
   "note": "exactly when the main thread of a driver waits: for the sample being taken on the component whose data is asked for, or for the end of the worker of the component being reset; the steps of the worker it waits for are bounded, no other component is waited for. Refuted: meanwhile messages for the other components are not taken up, however long the measurement takes"
  },
  {
   "property": "C123",
   "status": "partial",
   "theorems": [
    "Tomato.Props.End20.C123_ends",
    "Tomato.Props.End20.C123_told",
    "Tomato.Props.End20.C123_partial",
    "Tomato.Props.End20.C123_refuted_late",
    "Tomato.Props.End20.C123_refuted_race",
    "Tomato.Props.End20.C123_refuted_left"
   ],
   "note": "the process always ends within a bound on the steps of its main thread; a thread which is waited for has been told to end and takes at most nine more steps; if requests come one at a time, nothing is cut off unless a thread takes longer than one second or ends between is_alive and join; refuted for these cases and for threads left behind by a reset"
  },
  {
   "property": "C124",
   "status": "partial",
   "theorems": [
    "Tomato.Props.Waiting.C124_request",
    "Tomato.Props.Waiting.C124_same_as_lpp",
    "Tomato.Props.Waiting.C124_partial",
    "Tomato.Props.Waiting.C124_refuted",
    "Tomato.Props.Waiting.C124_refuted_zero",
    "Tomato.Props.Waiting.C124_refuted_negative"
   ],
   "note": "proved for numbers that are not negative; false for values which are no numbers (threads die, and the job is recorded as completed without having sent a task), for negative numbers (threads wait for ever) and useless for 0"
  },
  {
   "property": "C125",
   "status": "partial",
   "theorems": [
    "Tomato.Props.Two.C125_alive_partial",
    "Tomato.Props.Two.C125_stored_partial",
    "Tomato.Props.Two.C125_prefix_partial",
    "Tomato.Props.Two.C125_single_partial",
    "Tomato.Props.Two.C125_refuted",
    "Tomato.Props.Two.C125_refuted_measured",
    "Tomato.Props.Two.C125_refuted_lost",
    "Tomato.Props.Two.C125_refuted_stop"
   ],
   "note": "proved if tasks and measurements come while no thread of the component is being executed and no task is stopped, in particular for jobs with one task per component and no measurements in between; refuted: a second task submitted before the next thread has been prepared, or a task submitted when a measurement has just been accepted, ends the driver process; a measurement accepted between a task and its beginning, or a stop, loses data"
  },
  {
   "property": "C126",
   "status": "partial",
   "theorems": [
    "Tomato.Props.Fine.C126_partial",
    "Tomato.Props.Fine.C126_stop_partial",
    "Tomato.Props.Fine.C126_undisturbed_partial",
    "Tomato.Props.Fine.C126_refuted",
    "Tomato.Props.Fine.C126_refuted_start"
   ],
   "note": "proved by refinement if tasks, measurements and resets are asked for while no thread of the component is being executed (and, for the exact correspondence, the threads do not act in the middle of task_stop; without this the claims of C112 still hold); refuted: right after a task, when the component already reports to be ready, a measurement accepted with success starts a thread which waits for ever for a task, and a task accepted with success is taken up by a thread without do_run, which dies; in both cases the component reports to be running until it is reset"
  },
  {
   "property": "C127",
   "status": "partial",
   "theorems": [
    "Tomato.Props.Line.C127_partial",
    "Tomato.Props.Line.C127_named",
    "Tomato.Props.Line.C127_unknown_partial",
    "Tomato.Props.Line.C127_ambiguous",
    "Tomato.Props.Line.C127_refuted",
    "Tomato.Props.Line.C127_refuted_misspelt",
    "Tomato.Props.Line.C127_refuted_split",
    "Tomato.Props.Line.C127_refuted_together"
   ],
   "note": "proved for command lines made of -v and -q, the words of a subcommand, and then options of that subcommand (in full, shortened as --por, or short ones in one word as -yp1235), -v, -q, -vvq and one block of positionals, in any number; and a command line without a known subcommand, or with --v, --ve or --ver anywhere, is refused; words may be negative numbers (-5, -0.5, -5 mA), and -v and -q may end a word of other options (-yvv); not covered: --verbose shortened otherwise, -v in one word before other options (refuted), other words beginning with a dash; refuted: arguments which are not understood are dropped, so that tomato --port=1235 stop stops the daemon of port 1234, and ketchup cancel --prot 1235 12 cancels jobs 1235 and 12 of the daemon of port 1234"
  },
  {
   "property": "C128",
   "status": "partial",
   "theorems": [
    "Tomato.Props.Told.C128_daemon_partial",
    "Tomato.Props.Told.C128_driver_partial",
    "Tomato.Props.Told.C128_job_partial",
    "Tomato.Props.Told.C128_start_partial",
    "Tomato.Props.Told.C128_refuted",
    "Tomato.Props.Told.C128_refuted_driver",
    "Tomato.Props.Told.C128_refuted_job"
   ],
   "note": "proved for directories, paths and names which do not begin with a dash, or look like negative numbers; refuted for those which do: the process ends with a usage error"
  },
  {
   "property": "C129",
   "status": "partial",
   "theorems": [
    "Tomato.Props.Latest.C129_last",
    "Tomato.Props.Latest.C129_last_two",
    "Tomato.Props.Latest.C129_end_partial",
    "Tomato.Props.Latest.C129_end_two_partial",
    "Tomato.Props.Latest.C129_refuted",
    "Tomato.Props.Latest.C129_refuted_single"
   ],
   "note": "which measurement the last data is of is proved for both interfaces; that fetched data ends with it is proved when the latest measurement was done for a task (for 2.0 with do_task as one step); refuted: a reset keeps the last data, and a measurement on its own comes between the points of a task in the cache and their fetching"
  },
  {
   "property": "C130",
   "status": "partial",
   "theorems": [
    "Tomato.Props.Latest.C130_constants",
    "Tomato.Props.Latest.C130_unknown",
    "Tomato.Props.Latest.C130_status_partial",
    "Tomato.Props.Latest.C130_status_raises",
    "Tomato.Props.Latest.C130_refuted"
   ],
   "note": "the constants and the refusal are proved; the status is proved except for an attribute named running, which is refuted"
  },
  {
   "property": "C131",
   "status": "proved",
   "theorems": [
    "Tomato.Props.Times.C131_order"
   ],
   "note": ""
  },
  {
   "property": "C132",
   "status": "partial",
   "theorems": [
    "Tomato.Props.Times.C132_written_once_partial",
    "Tomato.Props.Times.C132_refuted"
   ],
   "note": "proved for the times of launch and connection, and that the time of completion never disappears; refuted for the time of completion, which the job manager may write over that of the job"
  },
  {
   "property": "C133",
   "status": "partial",
   "theorems": [
    "Tomato.Props.Times.C133_status_partial",
    "Tomato.Props.Times.C133_refuted",
    "Tomato.Props.Times.C133_refuted_rd",
    "Tomato.Props.Times.C133_refuted_launch"
   ],
   "note": "proved: launched before a time of launch or connection, connected before completed, running jobs have connected and are not completed, jobs in c and ce have both times; refuted: a cancelled queued job has no time of completion, a job may be rd after completion, the time of launch may be later than the others"
  },
  {
   "property": "C134",
   "status": "proved",
   "theorems": [
    "Tomato.Props.Given.C134_told",
    "Tomato.Props.Given.C134_launch",
    "Tomato.Props.Given.C134_kept",
    "Tomato.Props.Given.C134_process",
    "Tomato.Props.Given.C134_states",
    "Tomato.Props.Given.C134_steps"
   ],
   "note": "hypothesis NamesMatch (the pipelines of a configuration are listed under their names) holds for every parsed device file (namesMatch_parsed)"
  },
  {
   "property": "C135",
   "status": "proved",
   "theorems": [
    "Tomato.Props.Reload.C135_accepted",
    "Tomato.Props.Reload.C135_exact",
    "Tomato.Props.Reload.C135_reason",
    "Tomato.Props.Reload.C135_unchanged",
    "Tomato.Props.Reload.C135_files",
    "Tomato.Props.Reload.C135_answer"
   ],
   "note": "the hypotheses NamesMatch, CompsMatch and Complete hold for every parsed device file (parsed_ok); C135_reason and C135_unchanged assume that the pipelines with a job are in the configuration (otherwise KeyError, see C117)"
  },
  {
   "property": "C136",
   "status": "partial",
   "theorems": [
    "Tomato.Props.Reported.C136_partial",
    "Tomato.Props.Reported.C136_honest",
    "Tomato.Props.Reported.C136_served",
    "Tomato.Props.Reported.C136_status",
    "Tomato.Props.Reported.C136_refuted",
    "Tomato.Props.Reported.C136_refuted_absent"
   ],
   "note": "C136_partial is for the command lines of C127_partial; that a report is honest, comes last and once, and that the function is called at most once and with the daemon which answered, is proved for every command line; refuted: the exit status is 0 also if the command failed or if there is no daemon"
  },
  {
   "property": "C137",
   "status": "partial",
   "theorems": [
    "Tomato.Props.Rejection.C137_explained_partial",
    "Tomato.Props.Rejection.C137_exact",
    "Tomato.Props.Rejection.C137_refuted"
   ],
   "note": "proved unless the first wrong entry is a wildcard which names a channel; exactly then reading ends with a KeyError (misspelt key in the message)"
  },
  {
   "property": "C138",
   "status": "partial",
   "theorems": [
    "Tomato.Props.DataFiles.C138_stored_partial",
    "Tomato.Props.DataFiles.C138_own_partial",
    "Tomato.Props.DataFiles.C138_slash",
    "Tomato.Props.DataFiles.C138_refuted",
    "Tomato.Props.DataFiles.C138_refuted_every",
    "Tomato.Props.DataFiles.C138_refuted_absolute"
   ],
   "note": "proved for roles without a slash; a role whose first part is not a folder can not be stored; refuted for roles such as ../1/main, which write to the file of another job"
  }
 ]
}