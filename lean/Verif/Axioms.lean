import Verif.Ask.GoneProps
import Verif.Ask.HandlerProps
import Verif.Ask.Props
import Verif.Ask.SettleProps
import Verif.Ask.TaskProps
import Verif.Auth.DiscoveryProps
import Verif.Auth.DocumentProps
import Verif.Auth.FormProps
import Verif.Auth.TokenProps
import Verif.Await.KeepProps
import Verif.Await.LifeProps
import Verif.Await.Props
import Verif.Await.ServerKindProps
import Verif.Await.ServerLifeProps
import Verif.Await.ServerProps
import Verif.Await.ServerSafeProps
import Verif.Back.GoneProps
import Verif.Back.HandlerProps
import Verif.Back.Props
import Verif.Back.SettleProps
import Verif.Back.TaskProps
import Verif.Client.BuilderProps
import Verif.Client.CacheProps
import Verif.Client.CallProps
import Verif.Client.ReconnectProps
import Verif.Client.RequestProps
import Verif.Client.TaskOriginProps
import Verif.Client.TaskProps
import Verif.Client.TypedProps
import Verif.Config.Props
import Verif.Config.ServerProps
import Verif.Errors.Props
import Verif.Framer.Props
import Verif.Http.AuthProps
import Verif.Http.ChallengeProps
import Verif.Http.EventProps
import Verif.Http.ExchangeProps
import Verif.Http.HeadersProps
import Verif.Http.LeftoverProps
import Verif.Http.LinkProps
import Verif.Http.MetadataProps
import Verif.Http.ReverseProps
import Verif.Http.SendProps
import Verif.Http.ServerLeftProps
import Verif.Http.ServerLifeProps
import Verif.Http.ServerProps
import Verif.Http.ServerStopProps
import Verif.Http.SessionProps
import Verif.Http.StreamProps
import Verif.Http.TransportProps
import Verif.InMemory.DrainProps
import Verif.InMemory.LifeEndProps
import Verif.InMemory.LifeProps
import Verif.InMemory.Props
import Verif.Json.Props
import Verif.Life.EndProps
import Verif.Life.Props
import Verif.Life.ReadProps
import Verif.Lock.Props
import Verif.Log.LevelProps
import Verif.Log.Props
import Verif.Near.GoneProps
import Verif.Near.Props
import Verif.Near.SettleProps
import Verif.Near.TaskProps
import Verif.Pipe.GoneProps
import Verif.Pipe.HandlerProps
import Verif.Pipe.Props
import Verif.Pipe.SettleProps
import Verif.Pipe.TaskProps
import Verif.Race.ClientProps
import Verif.Race.HttpProps
import Verif.Race.ServerProps
import Verif.Race.TransportsProps
import Verif.Reach.AnswerProps
import Verif.Reach.GoneProps
import Verif.Reach.HandlerProps
import Verif.Reach.HeedProps
import Verif.Reach.LiveProps
import Verif.Reach.LostProps
import Verif.Reach.Props
import Verif.Reach.ReturnProps
import Verif.Reach.SettleProps
import Verif.Reach.StreamProps
import Verif.Reach.TaskProps
import Verif.Resource.ChunkProps
import Verif.Resource.ReadProps
import Verif.Resource.TemplateProps
import Verif.Rpc.Props
import Verif.Server.BeatEndProps
import Verif.Server.BeatOffProps
import Verif.Server.BeatOnProps
import Verif.Server.BeatProps
import Verif.Server.BeatStopProps
import Verif.Server.CancelProps
import Verif.Server.CapsProps
import Verif.Server.ContextProps
import Verif.Server.DispatchProps
import Verif.Server.HandshakeProps
import Verif.Server.ItemProps
import Verif.Server.LeftoverProps
import Verif.Server.LimiterProps
import Verif.Server.ListingProps
import Verif.Server.LocalProps
import Verif.Server.NotifyProps
import Verif.Server.RegistryProps
import Verif.Server.SettingsProps
import Verif.Server.StrictProps
import Verif.Server.TaskCallProps
import Verif.Server.TaskFlowProps
import Verif.Server.TaskOriginProps
import Verif.Share.GoneProps
import Verif.Share.Props
import Verif.Share.SettleProps
import Verif.Share.TaskProps
import Verif.SharedMemory.ChannelEndProps
import Verif.SharedMemory.ChannelProps
import Verif.SharedMemory.IdProps
import Verif.SharedMemory.LifeEndProps
import Verif.SharedMemory.LifeProps
import Verif.SharedMemory.Props
import Verif.Stdio.DuplexCaseProps
import Verif.Stdio.DuplexProps
import Verif.Stdio.DuplexSettleProps
import Verif.Stdio.LifeCloseProps
import Verif.Stdio.LifeEndProps
import Verif.Stdio.PendingProps
import Verif.Stdio.ReadProps
import Verif.Stdio.ServeProps
import Verif.Stdio.TimerProps
import Verif.Stdio.WriteProps
import Verif.Sync.Props
import Verif.Task.Props
import Verif.Validation.Props
import Verif.Web.Props
import Verif.Web.SettleProps
import Verif.Web.TaskProps
import Verif.Whole.GoneProps
import Verif.Whole.OnlyProps
import Verif.Whole.Props
import Verif.Whole.SettleProps
import Verif.Whole.TaskProps

/-! Axioms used by every property theorem. -/

#print axioms Verif.C01_string_roundtrip
#print axioms Verif.C01_parseString_roundtrip
#print axioms Verif.C01_no_control
#print axioms Verif.C02_value_roundtrip_partial
#print axioms Verif.C02_key_counterexample
#print axioms Verif.C02_backslash_key_counterexample
#print axioms Verif.C02_double_counterexample
#print axioms Verif.C03_terminates
#print axioms Verif.C03_fuel_irrelevant
#print axioms Verif.C03_forward
#print axioms Verif.C04_request_roundtrip_partial
#print axioms Verif.C04_request_roundtrip_wire
#print axioms Verif.C04_quoted_id_counterexample
#print axioms Verif.C04_id_injection_counterexample
#print axioms Verif.C04_empty_method
#print axioms Verif.C05_response_roundtrip_partial
#print axioms Verif.C05_success_iff_no_nested_error
#print axioms Verif.C05_nested_error_counterexample
#print axioms Verif.C05_nested_result_counterexample
#print axioms Verif.C06_notification_roundtrip_partial
#print axioms Verif.C06_notification_roundtrip_wire
#print axioms Verif.C07_whitespace_counterexample
#print axioms Verif.C07_order_counterexample
#print axioms Verif.C07_layout_independent_partial
#print axioms Verif.C08_encode_decode
#print axioms Verif.C08_foreign_header
#print axioms Verif.C09_chunk_independent
#print axioms Verif.C09_frames_delivered
#print axioms Verif.C10_delivered_bounded
#print axioms Verif.C10_oversized_disconnects
#print axioms Verif.C10_huge_length_counterexample
#print axioms Verif.C100_inside_counterexample
#print axioms Verif.C100_stdio_mode_partial
#print axioms Verif.C100_lost_counterexample
#print axioms Verif.C100_default_counterexample
#print axioms Verif.C101_level_read
#print axioms Verif.C101_unknown_counterexample
#print axioms Verif.C101_written
#print axioms Verif.C101_file
#print axioms Verif.C101_no_file
#print axioms Verif.C101_text
#print axioms Verif.C101_fatal_lost_counterexample
#print axioms Verif.C102_kind
#print axioms Verif.C102_cached
#print axioms Verif.C102_outcome
#print axioms Verif.C102_once
#print axioms Verif.C102_finishes
#print axioms Verif.C103_arguments_partial
#print axioms Verif.C103_kept
#print axioms Verif.C103_task_result_counterexample
#print axioms Verif.C103_task_result_fast
#print axioms Verif.C104_destroyed_partial
#print axioms Verif.C104_list_counterexample
#print axioms Verif.C104_result_counterexample
#print axioms Verif.C105_answered_partial
#print axioms Verif.C105_beside_partial
#print axioms Verif.C105_prompt_handler_counterexample
#print axioms Verif.C105_updated_counterexample
#print axioms Verif.C105_slow_prompt_counterexample
#print axioms Verif.C106_tool_partial
#print axioms Verif.C106_structured_counterexample
#print axioms Verif.C106_resource_partial
#print axioms Verif.C106_prompt_partial
#print axioms Verif.C106_required_counterexample
#print axioms Verif.C106_strict_counterexample
#print axioms Verif.C106_unknown_counterexample
#print axioms Verif.C107_tasks_partial
#print axioms Verif.C107_quiet_partial
#print axioms Verif.C107_call_counterexample
#print axioms Verif.C107_task_counterexample
#print axioms Verif.C107_taken_counterexample
#print axioms Verif.C107_unstopped_counterexample
#print axioms Verif.C107_reader_partial
#print axioms Verif.C107_serial
#print axioms Verif.C108_ends_partial
#print axioms Verif.C108_ask_counterexample
#print axioms Verif.C108_race_counterexample
#print axioms Verif.C108_refused_partial
#print axioms Verif.C109_stops
#print axioms Verif.C109_close_partial
#print axioms Verif.C109_delay_counterexample
#print axioms Verif.C109_again
#print axioms Verif.C109_delivered_partial
#print axioms Verif.C109_status_partial
#print axioms Verif.C109_status_counterexample
#print axioms Verif.C109_gone_counterexample
#print axioms Verif.C109_alive_partial
#print axioms Verif.C109_terminate_counterexample
#print axioms Verif.C11_drain_complete
#print axioms Verif.C11_resync
#print axioms Verif.C110_plain
#print axioms Verif.C110_carries
#print axioms Verif.C110_in_force
#print axioms Verif.C110_cleared
#print axioms Verif.C110_token
#print axioms Verif.C110_verified_partial
#print axioms Verif.C110_alive_partial
#print axioms Verif.C110_last
#print axioms Verif.C110_none
#print axioms Verif.C110_discovery_partial
#print axioms Verif.C110_session_partial
#print axioms Verif.C110_closed
#print axioms Verif.C110_every
#print axioms Verif.C110_fetch_counterexample
#print axioms Verif.C110_alive_counterexample
#print axioms Verif.C110_session_counterexample
#print axioms Verif.C111_prompt
#print axioms Verif.C111_shorthand
#print axioms Verif.C111_tool
#print axioms Verif.C111_read
#print axioms Verif.C111_sampling
#print axioms Verif.C111_sampling_shorthand
#print axioms Verif.C111_role_counterexample
#print axioms Verif.C111_bare_counterexample
#print axioms Verif.C112_returns
#print axioms Verif.C112_lost_wakeup_counterexample
#print axioms Verif.C112_change_counterexample
#print axioms Verif.C112_callback_counterexample
#print axioms Verif.C112_rhythm
#print axioms Verif.C112_silent
#print axioms Verif.C112_one_more
#print axioms Verif.C112_lasts
#print axioms Verif.C112_goes_on_partial
#print axioms Verif.C112_apart
#print axioms Verif.C112_first
#print axioms Verif.C112_bound
#print axioms Verif.C112_asleep_partial
#print axioms Verif.C113_result_shape
#print axioms Verif.C113_finishes
#print axioms Verif.C113_announced_partial
#print axioms Verif.C113_sampling_counterexample
#print axioms Verif.C113_outcome
#print axioms Verif.C113_once
#print axioms Verif.C113_wired
#print axioms Verif.C113_not_started_counterexample
#print axioms Verif.C113_arguments_partial
#print axioms Verif.C113_task_result_counterexample
#print axioms Verif.C113_destroyed_partial
#print axioms Verif.C113_destroyed_counterexample
#print axioms Verif.Duplex.C114_cut_only
#print axioms Verif.Duplex.C114_handler
#print axioms Verif.Duplex.C114_told
#print axioms Verif.Duplex.C114_close
#print axioms Verif.Duplex.C114_oversize_counterexample
#print axioms Verif.Duplex.C114_in_order
#print axioms Verif.Duplex.C114_answer_partial
#print axioms Verif.Duplex.C114_once_partial
#print axioms Verif.Duplex.C114_settles_partial
#print axioms Verif.Whole.C115_gone
#print axioms Verif.Whole.C115_ended_by
#print axioms Verif.Whole.C115_calls_partial
#print axioms Verif.Whole.C115_result_partial
#print axioms Verif.Whole.C115_once_partial
#print axioms Verif.Whole.C115_tool_partial
#print axioms Verif.Whole.C115_prompt_partial
#print axioms Verif.Whole.C115_settles_partial
#print axioms Verif.Web.C116_matched_partial
#print axioms Verif.Web.C116_tool_partial
#print axioms Verif.Web.C116_prompt_partial
#print axioms Verif.Web.C116_settles_partial
#print axioms Verif.Http.C117_swept
#print axioms Verif.Http.C117_port_partial
#print axioms Verif.Http.C117_port_counterexample
#print axioms Verif.Http.C117_tells
#print axioms Verif.Http.C117_ready
#print axioms Verif.Http.C117_restart_counterexample
#print axioms Verif.Http.C117_twice_counterexample
#print axioms Verif.Http.C117_stopped
#print axioms Verif.Http.C117_handler_counterexample
#print axioms Verif.Http.C117_stop_returns_partial
#print axioms Verif.Http.C117_stop_hangs_counterexample
#print axioms Verif.Http.C117_destroy_partial
#print axioms Verif.Http.C117_destroy_hangs_counterexample
#print axioms Verif.Stdio.C118_close_returns_partial
#print axioms Verif.Stdio.C118_second_close_counterexample
#print axioms Verif.Stdio.C118_closed_partial
#print axioms Verif.Stdio.C118_destroy_partial
#print axioms Verif.Stdio.C118_unclosed_counterexample
#print axioms Verif.Stdio.C118_given_up_counterexample
#print axioms Verif.Stdio.C118_self_counterexample
#print axioms Verif.Stdio.C118_twice_counterexample
#print axioms Verif.Stdio.C118_alive_partial
#print axioms Verif.Stdio.C118_one_reader_partial
#print axioms Verif.Stdio.C118_two_readers_counterexample
#print axioms Verif.Stdio.C118_ghost_counterexample
#print axioms Verif.Stdio.C118_stale_counterexample
#print axioms Verif.Stdio.C118_torn_counterexample
#print axioms Verif.InMemory.C119_start_returns_partial
#print axioms Verif.InMemory.C119_destroy_returns_partial
#print axioms Verif.InMemory.C119_destroy_counterexample
#print axioms Verif.InMemory.C119_one_thread
#print axioms Verif.InMemory.C119_destroyed
#print axioms Verif.InMemory.C119_in_order
#print axioms Verif.InMemory.C119_destroyed_safe_partial
#print axioms Verif.InMemory.C119_handler_counterexample
#print axioms Verif.InMemory.C119_peer_counterexample
#print axioms Verif.InMemory.C119_after_close_counterexample
#print axioms Verif.InMemory.C119_stale_counterexample
#print axioms Verif.InMemory.C119_overlap_counterexample
#print axioms Verif.InMemory.C119_twice_counterexample
#print axioms Verif.InMemory.C119_restart_counterexample
#print axioms Verif.C12_bounded
#print axioms Verif.C12_ordered_prefix
#print axioms Verif.C12_idle_complete
#print axioms Verif.C12_overflow_refused
#print axioms Verif.C12_silent_after_disconnect
#print axioms Verif.C12_end_to_end
#print axioms Verif.C12_writer_catches_up
#print axioms Verif.Shm.C120_told_partial
#print axioms Verif.Shm.C120_each
#print axioms Verif.Shm.C120_meet_partial
#print axioms Verif.Shm.C120_two_creators_counterexample
#print axioms Verif.Shm.C120_two_openers_counterexample
#print axioms Verif.Shm.C120_orphan_counterexample
#print axioms Verif.Shm.C120_returns_partial
#print axioms Verif.Shm.C120_closed
#print axioms Verif.Shm.C120_destroyed
#print axioms Verif.Shm.C120_safe_partial
#print axioms Verif.Shm.C120_twice_counterexample
#print axioms Verif.Shm.C120_refused_counterexample
#print axioms Verif.Shm.C120_handler_counterexample
#print axioms Verif.Shm.C120_reconnect_counterexample
#print axioms Verif.C121_registries_partial
#print axioms Verif.C121_settings_partial
#print axioms Verif.C121_subscriptions_counterexample
#print axioms Verif.C121_client_capabilities_counterexample
#print axioms Verif.C121_keepalive_before_start_counterexample
#print axioms Verif.C121_keepalive_after_start_counterexample
#print axioms Verif.C121_late_handler_counterexample
#print axioms Verif.C122_in_memory_queues_partial
#print axioms Verif.C122_in_memory_settings_partial
#print axioms Verif.C122_stdio_queues_partial
#print axioms Verif.C122_stdio_settings_partial
#print axioms Verif.C122_stdio_reader_partial
#print axioms Verif.C122_shared_memory_requests_partial
#print axioms Verif.C122_shared_memory_settings_partial
#print axioms Verif.C122_in_memory_late_handler_counterexample
#print axioms Verif.C122_stdio_close_in_handler_counterexample
#print axioms Verif.C122_stdio_framer_counterexample
#print axioms Verif.C122_shared_memory_restart_counterexample
#print axioms Verif.C123_caches_partial
#print axioms Verif.C123_settings_partial
#print axioms Verif.C123_server_capabilities_partial
#print axioms Verif.C123_capabilities_counterexample
#print axioms Verif.C123_late_handler_counterexample
#print axioms Verif.C123_ttl_counterexample
#print axioms Verif.C123_two_initializations_counterexample
#print axioms Verif.C124_transport_guarded_partial
#print axioms Verif.C124_transport_settings_partial
#print axioms Verif.C124_server_sessions_partial
#print axioms Verif.C124_server_settings_partial
#print axioms Verif.C124_transport_close_counterexample
#print axioms Verif.C124_server_active_session_counterexample
#print axioms Verif.C124_server_stop_counterexample
#print axioms Verif.C125_exact_partial
#print axioms Verif.C125_stopped_partial
#print axioms Verif.C125_restart_partial
#print axioms Verif.C125_only_when_told
#print axioms Verif.C125_own_client_counterexample
#print axioms Verif.C125_no_transport_counterexample
#print axioms Verif.C125_late_notification_counterexample
#print axioms Verif.C125_second_start_counterexample
#print axioms Verif.C126_once_in_order_partial
#print axioms Verif.C126_complete_partial
#print axioms Verif.C126_silent_without_transport
#print axioms Verif.C126_caches_dropped
#print axioms Verif.C126_answer_first_counterexample
#print axioms Verif.C126_before_initialize_counterexample
#print axioms Verif.Http.C127_sessions
#print axioms Verif.Http.C127_stopped
#print axioms Verif.Http.C127_abandoned_sessions_counterexample
#print axioms Verif.Http.C127_unread_counterexample
#print axioms Verif.Cancel.C127_tokens_partial
#print axioms Verif.Cancel.C127_sources
#print axioms Verif.Cancel.C127_settled_partial
#print axioms Verif.Cancel.C127_late_cancellations_counterexample
#print axioms Verif.Tasks.C127_tasks_counterexample
#print axioms Verif.C128_said_partial
#print axioms Verif.C128_current_partial
#print axioms Verif.C128_uncached_partial
#print axioms Verif.C128_connected
#print axioms Verif.C128_cached_counterexample
#print axioms Verif.C128_cut_off_counterexample
#print axioms Verif.C128_unconnected_counterexample
#print axioms Verif.Near.C129_gone
#print axioms Verif.Near.C129_ended_by
#print axioms Verif.Near.C129_result_partial
#print axioms Verif.Near.C129_calls_partial
#print axioms Verif.Near.C129_tool_partial
#print axioms Verif.Near.C129_prompt_partial
#print axioms Verif.Near.C129_settles_partial
#print axioms Verif.C13_at_most_once
#print axioms Verif.C13_answer_matches
#print axioms Verif.C13_close_completes_partial
#print axioms Verif.C13_close_race_counterexample
#print axioms Verif.C13_no_early_timeout
#print axioms Verif.C13_timeouts_fire
#print axioms Verif.C13_null_id_ignored
#print axioms Verif.C13_alias_counterexample
#print axioms Verif.C13_no_broken_partial
#print axioms Verif.C13_disconnect_hang_counterexample
#print axioms Verif.Ask.C130_gone
#print axioms Verif.Ask.C130_ended_by
#print axioms Verif.Ask.C130_sampling_partial
#print axioms Verif.Ask.C130_roots_partial
#print axioms Verif.Ask.C130_elicitation_partial
#print axioms Verif.Ask.C130_ping_partial
#print axioms Verif.Ask.C130_result_partial
#print axioms Verif.Ask.C130_handled_partial
#print axioms Verif.Ask.C130_settles_partial
#print axioms Verif.Near.C131_memory_partial
#print axioms Verif.C131_origin
#print axioms Verif.C131_failure
#print axioms Verif.C131_once
#print axioms Verif.Web.C131_http_partial
#print axioms Verif.Whole.C131_stdio_partial
#print axioms Verif.Ask.C132_sampling_partial
#print axioms Verif.Ask.C132_elicitation_partial
#print axioms Verif.C132_origin
#print axioms Verif.C132_failure
#print axioms Verif.C132_once
#print axioms Verif.Share.C133_gone
#print axioms Verif.Share.C133_ended_by
#print axioms Verif.Share.C133_result_partial
#print axioms Verif.Share.C133_calls_partial
#print axioms Verif.Share.C133_tool_partial
#print axioms Verif.Share.C133_prompt_partial
#print axioms Verif.Share.C133_words_counterexample
#print axioms Verif.Share.C133_settles_partial
#print axioms Verif.Share.C133_task_partial
#print axioms Verif.Back.C134_gone
#print axioms Verif.Back.C134_ended_by
#print axioms Verif.Back.C134_sampling_partial
#print axioms Verif.Back.C134_roots_partial
#print axioms Verif.Back.C134_elicitation_partial
#print axioms Verif.Back.C134_ping_partial
#print axioms Verif.Back.C134_result_partial
#print axioms Verif.Back.C134_handled_partial
#print axioms Verif.Back.C134_words_counterexample
#print axioms Verif.Back.C134_settles_partial
#print axioms Verif.Back.C134_sampling_task_partial
#print axioms Verif.Back.C134_elicitation_task_partial
#print axioms Verif.Pipe.C135_gone
#print axioms Verif.Pipe.C135_ended_by
#print axioms Verif.Pipe.C135_sampling_partial
#print axioms Verif.Pipe.C135_roots_partial
#print axioms Verif.Pipe.C135_elicitation_partial
#print axioms Verif.Pipe.C135_ping_partial
#print axioms Verif.Pipe.C135_result_partial
#print axioms Verif.Pipe.C135_handled_partial
#print axioms Verif.Pipe.C135_settles_partial
#print axioms Verif.Pipe.C135_sampling_task_partial
#print axioms Verif.Pipe.C135_elicitation_task_partial
#print axioms Verif.Reach.C136_answered_partial
#print axioms Verif.Reach.C136_gone
#print axioms Verif.Reach.C136_ended_by
#print axioms Verif.Reach.C136_sampling_partial
#print axioms Verif.Reach.C136_roots_partial
#print axioms Verif.Reach.C136_elicitation_partial
#print axioms Verif.Reach.C136_ping_partial
#print axioms Verif.Reach.C136_heeded_partial
#print axioms Verif.Reach.C136_live_partial
#print axioms Verif.Reach.C136_lost_counterexample
#print axioms Verif.Reach.C136_result_partial
#print axioms Verif.Reach.C136_handled_partial
#print axioms Verif.Reach.C136_returned_partial
#print axioms Verif.Reach.C136_ended_partial
#print axioms Verif.Reach.C136_closed_partial
#print axioms Verif.Reach.C136_streamed_partial
#print axioms Verif.Reach.C136_sampling_task_partial
#print axioms Verif.Reach.C136_elicitation_task_partial
#print axioms Verif.C14_request_answered
#print axioms Verif.C14_response_silent
#print axioms Verif.C14_reply_iff_handled
#print axioms Verif.C14_end_to_end
#print axioms Verif.C14_no_handler_counterexample
#print axioms Verif.C15_request_classified
#print axioms Verif.C15_notification_classified
#print axioms Verif.C15_response_classified
#print axioms Verif.C15_backslash_id_counterexample
#print axioms Verif.C16_own_answer_partial
#print axioms Verif.C16_ids_differ
#print axioms Verif.C16_none_broken
#print axioms Verif.C16_all_answered_partial
#print axioms Verif.C16_never_stuck_partial
#print axioms Verif.C16_in_order_exactly_once
#print axioms Verif.C16_completes_at_most_once
#print axioms Verif.C16_handled_once
#print axioms Verif.C16_answer_is_reply_partial
#print axioms Verif.C16_unreachable_peer_reported
#print axioms Verif.C16_request_answered
#print axioms Verif.C16_send_after_close_counterexample
#print axioms Verif.C16_peer_close_counterexample
#print axioms Verif.C17_ids_unique
#print axioms Verif.C17_fresh
#print axioms Verif.C17_id_stable
#print axioms Verif.C18_finished_immutable
#print axioms Verif.C18_first_transition_wins
#print axioms Verif.C18_transition_effect
#print axioms Verif.C18_cancel_finished_refused
#print axioms Verif.C19_pages_show_every_task
#print axioms Verif.C19_terminates
#print axioms Verif.C19_page_contents
#print axioms Verif.C20_task_roundtrip
#print axioms Verif.C20_results_roundtrip
#print axioms Verif.C20_task_text_roundtrip
#print axioms Verif.C21_match_is_instantiation_partial
#print axioms Verif.C21_match_occurrences
#print axioms Verif.C21_repeated_name_counterexample
#print axioms Verif.C22_match_complete
#print axioms Verif.C22_substitution_matches
#print axioms Verif.C22_shortest_match
#print axioms Verif.C23_resolution
#print axioms Verif.C23_exhaustive
#print axioms Verif.C24_ranged_read
#print axioms Verif.C24_full_read
#print axioms Verif.C24_bad_range_refused
#print axioms Verif.C24_non_text_refused
#print axioms Verif.C24_clamp_setting
#print axioms Verif.C25_chunked_read
#print axioms Verif.C25_clamp_aware
#print axioms Verif.C25_cancelled_prefix
#print axioms Verif.C25_huge_chunk_counterexample
#print axioms Verif.C26_only_named
#print axioms Verif.C26_stop_only_named
#print axioms Verif.C26_exact_partial
#print axioms Verif.C26_observed_partial
#print axioms Verif.C26_stop_agrees_partial
#print axioms Verif.C26_shared_id_counterexample
#print axioms Verif.C26_text_id_counterexample
#print axioms Verif.C26_late_cancel_hits_reuse
#print axioms Verif.C27_tools
#print axioms Verif.C27_resources
#print axioms Verif.C27_templates
#print axioms Verif.C27_prompts
#print axioms Verif.C27_order_fixed
#print axioms Verif.C27_past_end
#print axioms Verif.C27_strict_refuses
#print axioms Verif.C28_ui_hidden
#print axioms Verif.C28_ui_shown
#print axioms Verif.C29_subscribed_partial
#print axioms Verif.C29_unsubscribed_counterexample
#print axioms Verif.C29_never_missed
#print axioms Verif.C29_flag_race_counterexample
#print axioms Verif.C30_levels_partial
#print axioms Verif.C30_documented_levels_partial
#print axioms Verif.C30_dropped_counterexample
#print axioms Verif.C30_passed_counterexample
#print axioms Verif.C31_decisions
#print axioms Verif.C31_window_bound
#print axioms Verif.C31_in_force
#print axioms Verif.C31_twice
#print axioms Verif.C31_burst_counterexample
#print axioms Verif.C32_closes_iff
#print axioms Verif.C32_only_sends
#print axioms Verif.C32_exact_partial
#print axioms Verif.C32_restart_counterexample
#print axioms Verif.C33_tools
#print axioms Verif.C33_tools_named
#print axioms Verif.C33_prompts
#print axioms Verif.C33_resources
#print axioms Verif.C33_templates
#print axioms Verif.C33_listed_once
#print axioms Verif.C34_own_id
#print axioms Verif.C34_answered_partial
#print axioms Verif.C34_unknown_method
#print axioms Verif.C34_documented_found
#print axioms Verif.C34_initialize
#print axioms Verif.C34_ping
#print axioms Verif.C34_escape_counterexample
#print axioms Verif.C34_tool_escape_counterexample
#print axioms Verif.C35_step
#print axioms Verif.C35_history
#print axioms Verif.C35_mode
#print axioms Verif.C36_category
#print axioms Verif.C36_parsed_category
#print axioms Verif.C36_roundtrip
#print axioms Verif.C36_response_roundtrip
#print axioms Verif.C36_recognised
#print axioms Verif.C36_code_mod
#print axioms Verif.C36_wide_code_counterexample
#print axioms Verif.C36_text_roundtrip
#print axioms Verif.C37_icon_roundtrip
#print axioms Verif.C37_icons_roundtrip
#print axioms Verif.C37_reads_exactly_valid_icons
#print axioms Verif.C38_hit_iff
#print axioms Verif.C38_miss
#print axioms Verif.C38_own_reply
#print axioms Verif.C39_stored_after
#print axioms Verif.C39_invalidated_partial
#print axioms Verif.C39_race_counterexample
#print axioms Verif.C40_error_counterexample
#print axioms Verif.C40_success_partial
#print axioms Verif.C40_exception_not_cached
#print axioms Verif.C41_call_tool_result
#print axioms Verif.C41_read_resource_result
#print axioms Verif.C41_get_prompt_result
#print axioms Verif.C41_listings
#print axioms Verif.C41_tasks
#print axioms Verif.C41_others
#print axioms Verif.C41_elicitation
#print axioms Verif.C41_builders
#print axioms Verif.C41_built_result_accepted
#print axioms Verif.C42_passes_iff
#print axioms Verif.C42_refusal_iff
#print axioms Verif.C42_guarded_partial
#print axioms Verif.C42_refused_reply
#print axioms Verif.C42_admitted
#print axioms Verif.C42_stream_counterexample
#print axioms Verif.C43_headers_partial
#print axioms Verif.C43_opaque_origin
#print axioms Verif.C43_malformed_counterexample
#print axioms Verif.C43_guarded_iff
#print axioms Verif.C43_server_partial
#print axioms Verif.C44_delivery
#print axioms Verif.C44_streams
#print axioms Verif.C44_lookup
#print axioms Verif.C44_answers
#print axioms Verif.C44_answer_own
#print axioms Verif.C44_remove
#print axioms Verif.C44_found_partial
#print axioms Verif.C44_collision_counterexample
#print axioms Verif.C44_race_counterexample
#print axioms Verif.C45_messages_partial
#print axioms Verif.C45_data_lines
#print axioms Verif.C45_crlf
#print axioms Verif.C45_retry_partial
#print axioms Verif.C45_retry_counterexample
#print axioms Verif.C45_split_counterexample
#print axioms Verif.C46_once
#print axioms Verif.C46_exchange
#print axioms Verif.C46_answered
#print axioms Verif.C46_waits
#print axioms Verif.C46_foreign_counterexample
#print axioms Verif.C46_request_counterexample
#print axioms Verif.C46_close_partial
#print axioms Verif.C46_race_counterexample
#print axioms Verif.C47_handed_iff
#print axioms Verif.C47_answered_once
#print axioms Verif.C47_answer_sent_partial
#print axioms Verif.C47_dropped_counterexample
#print axioms Verif.C47_set_level_counterexample
#print axioms Verif.C47_error_log_counterexample
#print axioms Verif.C47_notification_iff
#print axioms Verif.C47_own_request_counterexample
#print axioms Verif.C47_log_answers_counterexample
#print axioms Verif.C48_terminates
#print axioms Verif.C48_parses
#print axioms Verif.C48_other_scheme
#print axioms Verif.C48_server_partial
#print axioms Verif.C48_comma_counterexample
#print axioms Verif.C49_form
#print axioms Verif.C49_injective
#print axioms Verif.C49_ascii
#print axioms Verif.C50_after_partial
#print axioms Verif.C50_chain
#print axioms Verif.C50_once
#print axioms Verif.C50_received
#print axioms Verif.C50_reused
#print axioms Verif.C50_renewed
#print axioms Verif.C50_stale_counterexample
#print axioms Verif.C50_null_counterexample
#print axioms Verif.C50_escape_counterexample
#print axioms Verif.C50_zero_counterexample
#print axioms Verif.C51_origin_partial
#print axioms Verif.C51_case_counterexample
#print axioms Verif.C52_server_to_client
#print axioms Verif.C52_server_roundtrip
#print axioms Verif.C52_flags_counterexample
#print axioms Verif.C52_client_to_server
#print axioms Verif.C52_client_roundtrip
#print axioms Verif.C52_extensions_counterexample
#print axioms Verif.C52_extensions_parsed
#print axioms Verif.C52_reinitialize
#print axioms Verif.C52_wire
#print axioms Verif.C52_reinitialize_client
#print axioms Verif.C52_roots_parsed
#print axioms Verif.C53_listAll_concatenates
#print axioms Verif.C53_listAllTools
#print axioms Verif.C53_listAllResources
#print axioms Verif.C53_listAllTemplates
#print axioms Verif.C53_listAllPrompts
#print axioms Verif.C54_innermost
#print axioms Verif.C54_restored
#print axioms Verif.C54_own_request
#print axioms Verif.C54_other_thread_counterexample
#print axioms Verif.C55_reads_json_partial
#print axioms Verif.C55_surrogate_counterexample
#print axioms Verif.C55_bigint_counterexample
#print axioms Verif.C55_accepts_invalid
#print axioms Verif.C56_emptied_pipe_delivered_partial
#print axioms Verif.C56_open_pipe_is_emptied
#print axioms Verif.C56_hangup_loses_data_counterexample
#print axioms Verif.C57_disable_counterexample
#print axioms Verif.C57_deadline_exact_partial
#print axioms Verif.C58_lost_wakeup_counterexample
#print axioms Verif.C58_stop_returns_partial
#print axioms Verif.C59_timeouts_on_time_partial
#print axioms Verif.C59_lowered_timeout_counterexample
#print axioms Verif.C60_strict_never_truncates_partial
#print axioms Verif.C60_truncated_counterexample
#print axioms Verif.C61_success_reported
#print axioms Verif.C61_failure_reported_partial
#print axioms Verif.C61_error_response_reported
#print axioms Verif.C61_lost_response_counterexample
#print axioms Verif.C61_error_like_result_counterexample
#print axioms Verif.C62_tool_roundtrip
#print axioms Verif.C62_resource_roundtrip
#print axioms Verif.C62_template_roundtrip
#print axioms Verif.C62_prompt_roundtrip
#print axioms Verif.C62_bad_icons_dropped
#print axioms Verif.C63_changes_announced
#print axioms Verif.C64_truncated_counterexample
#print axioms Verif.C64_complete_partial
#print axioms Verif.C65_task_delivers
#print axioms Verif.C66_lost_task_counterexample
#print axioms Verif.C66_tasks_have_workers_partial
#print axioms Verif.C67_strict_results
#print axioms Verif.C67_strict_tools
#print axioms Verif.C68_complete
#print axioms Verif.C68_call_tool
#print axioms Verif.C68_get_prompt
#print axioms Verif.C68_read_resource
#print axioms Verif.C68_read_template
#print axioms Verif.C68_sampling
#print axioms Verif.C69_keeps_going_partial
#print axioms Verif.C69_no_resume_counterexample
#print axioms Verif.C69_stop_counterexample
#print axioms Verif.C70_advertised_partial
#print axioms Verif.C70_chunking
#print axioms Verif.C70_replaced_counterexample
#print axioms Verif.C71_task_calls
#print axioms Verif.C71_complete_partial
#print axioms Verif.C71_complete_counterexample
#print axioms Verif.C71_task_result_counterexample
#print axioms Verif.C71_server_tasks
#print axioms Verif.C71_server_requests_counterexample
#print axioms Verif.C71_server_requests_partial
#print axioms Verif.C72_get_task
#print axioms Verif.C72_call_tool_task
#print axioms Verif.C72_cancel_task
#print axioms Verif.C72_list_tasks
#print axioms Verif.C73_own_id
#print axioms Verif.C73_answered_partial
#print axioms Verif.C73_unknown_method
#print axioms Verif.C73_tasks_not_announced
#print axioms Verif.C73_tasks_announced
#print axioms Verif.C73_escape_counterexample
#print axioms Verif.C74_roots
#print axioms Verif.C74_elicitation
#print axioms Verif.C74_sampling
#print axioms Verif.C74_sampling_cancelled
#print axioms Verif.C74_sampling_sent
#print axioms Verif.C74_sampling_options_counterexample
#print axioms Verif.C75_strict_results
#print axioms Verif.C75_strict_handlers
#print axioms Verif.C75_bad_params
#print axioms Verif.C75_lenient
#print axioms Verif.C76_sampling_started
#print axioms Verif.C76_elicitation_started
#print axioms Verif.C76_not_announced
#print axioms Verif.C76_elicitation_delivers
#print axioms Verif.C76_sampling_delivers
#print axioms Verif.C76_lost_task_counterexample
#print axioms Verif.C76_tasks_have_workers_partial
#print axioms Verif.C77_progress
#print axioms Verif.C77_strict_progress
#print axioms Verif.C77_integer_progress_counterexample
#print axioms Verif.C77_integer_token_counterexample
#print axioms Verif.C77_task_status
#print axioms Verif.C77_handlers
#print axioms Verif.C77_cancelled
#print axioms Verif.C78_strict_answers_partial
#print axioms Verif.C78_sampling_counterexample
#print axioms Verif.C79_tools
#print axioms Verif.C79_resources
#print axioms Verif.C79_templates
#print axioms Verif.C79_prompts
#print axioms Verif.C80_stays_on_partial
#print axioms Verif.C80_scopes_dropped_counterexample
#print axioms Verif.C81_newest_partial
#print axioms Verif.C81_other_session_counterexample
#print axioms Verif.C81_refused_counterexample
#print axioms Verif.C82_versions
#print axioms Verif.C82_needs_session
#print axioms Verif.C82_opens
#print axioms Verif.C82_within
#print axioms Verif.C82_ends
#print axioms Verif.C83_answered_partial
#print axioms Verif.C83_own_id
#print axioms Verif.C83_rpc_answered
#print axioms Verif.C83_notify_counterexample
#print axioms Verif.C84_restart_counterexample
#print axioms Verif.C84_hang_counterexample
#print axioms Verif.C84_sends_partial
#print axioms Verif.C85_metadata_partial
#print axioms Verif.C85_quote_counterexample
#print axioms Verif.C86_issuer
#print axioms Verif.C86_resource_partial
#print axioms Verif.C86_path_counterexample
#print axioms Verif.C87_issuer_partial
#print axioms Verif.C87_resource_partial
#print axioms Verif.C87_nested_counterexample
#print axioms Verif.C87_escape_counterexample
#print axioms Verif.C88_connection_partial
#print axioms Verif.C88_clear_counterexample
#print axioms Verif.C88_bare
#print axioms Verif.C88_v6_counterexample
#print axioms Verif.C89_sound
#print axioms Verif.C89_first
#print axioms Verif.C89_finds_partial
#print axioms Verif.C90_made_ids_differ
#print axioms Verif.C90_gone_after_close
#print axioms Verif.C90_opener_replaced
#print axioms Verif.C90_in_order_exactly_once
#print axioms Verif.C90_completes_at_most_once
#print axioms Verif.C90_answer_is_reply_partial
#print axioms Verif.C90_queue_bounds
#print axioms Verif.C90_unsent_reported
#print axioms Verif.C90_told
#print axioms Verif.C90_after_close_partial
#print axioms Verif.C90_race_counterexample
#print axioms Verif.C90_large_answer_counterexample
#print axioms Verif.C90_full_queue_counterexample
#print axioms Verif.C90_creator_not_told_counterexample
#print axioms Verif.C90_opener_leaves
#print axioms Verif.C90_small_buffer_counterexample
#print axioms Verif.C91_sent
#print axioms Verif.C91_refused
#print axioms Verif.C91_filed
#print axioms Verif.C91_session
#print axioms Verif.C91_server_request
#print axioms Verif.C91_server_notification
#print axioms Verif.C91_after_close
#print axioms Verif.C91_ids_differ
#print axioms Verif.C92_answers_partial
#print axioms Verif.C92_once_partial
#print axioms Verif.C92_delivered_partial
#print axioms Verif.C92_opens_partial
#print axioms Verif.C92_lost_counterexample
#print axioms Verif.C92_version_counterexample
#print axioms Verif.C93_answers_partial
#print axioms Verif.C93_once_partial
#print axioms Verif.C93_asked_partial
#print axioms Verif.C93_delivered_partial
#print axioms Verif.C93_unsent_counterexample
#print axioms Verif.C94_never_answered_counterexample
#print axioms Verif.C94_answers_counterexample
#print axioms Verif.C94_blocked_counterexample
#print axioms Verif.C94_timeout_frees_partial
#print axioms Verif.C95_seen_partial
#print axioms Verif.C95_unseen_counterexample
#print axioms Verif.C96_in_order
#print axioms Verif.C96_never_stuck
#print axioms Verif.C96_own_answer
#print axioms Verif.C97_stdio_settings_partial
#print axioms Verif.C97_no_timeout_counterexample
#print axioms Verif.C97_env_zero_counterexample
#print axioms Verif.C97_lines_counterexample
#print axioms Verif.C97_not_a_number_counterexample
#print axioms Verif.C97_http_settings_partial
#print axioms Verif.C97_semicolon_counterexample
#print axioms Verif.C97_scheme_case_counterexample
#print axioms Verif.C97_http_number_cut_counterexample
#print axioms Verif.C98_shm_pair_partial
#print axioms Verif.C98_shm_name_counterexample
#print axioms Verif.C98_shm_values_counterexample
#print axioms Verif.C98_server_text_partial
#print axioms Verif.C98_tls_only_small_letters
#print axioms Verif.C98_open_bracket_counterexample
#print axioms Verif.C98_bare_v6_counterexample
#print axioms Verif.C99_port_accepted
