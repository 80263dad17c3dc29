import Verif.Model.Rt
/-!
# Frame lemmas: which fields an operation of the runtime does not change (generated)
-/
namespace Neco.Rt

@[simp] theorem upd_sco (s : S) (i : Nat) (f : Co → Co) : (upd s i f).sco = s.sco := rfl
@[simp] theorem upd_lists (s : S) (i : Nat) (f : Co → Co) : (upd s i f).lists = s.lists := rfl
@[simp] theorem upd_chan (s : S) (i : Nat) (f : Co → Co) : (upd s i f).chan = s.chan := rfl
@[simp] theorem upd_nchan (s : S) (i : Nat) (f : Co → Co) : (upd s i f).nchan = s.nchan := rfl
@[simp] theorem upd_mu (s : S) (i : Nat) (f : Co → Co) : (upd s i f).mu = s.mu := rfl
@[simp] theorem upd_wg (s : S) (i : Nat) (f : Co → Co) : (upd s i f).wg = s.wg := rfl
@[simp] theorem upd_all (s : S) (i : Nat) (f : Co → Co) : (upd s i f).all = s.all := rfl
@[simp] theorem upd_allCount (s : S) (i : Nat) (f : Co → Co) : (upd s i f).allCount = s.allCount := rfl
@[simp] theorem upd_dlq (s : S) (i : Nat) (f : Co → Co) : (upd s i f).dlq = s.dlq := rfl
@[simp] theorem upd_evw (s : S) (i : Nat) (f : Co → Co) : (upd s i f).evw = s.evw := rfl
@[simp] theorem upd_armed (s : S) (i : Nat) (f : Co → Co) : (upd s i f).armed = s.armed := rfl
@[simp] theorem upd_nsleepers (s : S) (i : Nat) (f : Co → Co) : (upd s i f).nsleepers = s.nsleepers := rfl
@[simp] theorem upd_nlocked (s : S) (i : Nat) (f : Co → Co) : (upd s i f).nlocked = s.nlocked := rfl
@[simp] theorem upd_nreceivers (s : S) (i : Nat) (f : Co → Co) : (upd s i f).nreceivers = s.nreceivers := rfl
@[simp] theorem upd_nsenders (s : S) (i : Nat) (f : Co → Co) : (upd s i f).nsenders = s.nsenders := rfl
@[simp] theorem upd_nwaitgroupers (s : S) (i : Nat) (f : Co → Co) : (upd s i f).nwaitgroupers = s.nwaitgroupers := rfl
@[simp] theorem upd_ncondwaiters (s : S) (i : Nat) (f : Co → Co) : (upd s i f).ncondwaiters = s.ncondwaiters := rfl
@[simp] theorem upd_nsuspended (s : S) (i : Nat) (f : Co → Co) : (upd s i f).nsuspended = s.nsuspended := rfl
@[simp] theorem upd_nevwaiters (s : S) (i : Nat) (f : Co → Co) : (upd s i f).nevwaiters = s.nevwaiters := rfl
@[simp] theorem upd_nsigwaiters (s : S) (i : Nat) (f : Co → Co) : (upd s i f).nsigwaiters = s.nsigwaiters := rfl
@[simp] theorem upd_nresumers (s : S) (i : Nat) (f : Co → Co) : (upd s i f).nresumers = s.nresumers := rfl
@[simp] theorem upd_niowaiters (s : S) (i : Nat) (f : Co → Co) : (upd s i f).niowaiters = s.niowaiters := rfl
@[simp] theorem upd_pool (s : S) (i : Nat) (f : Co → Co) : (upd s i f).pool = s.pool := rfl
@[simp] theorem upd_sigqueue (s : S) (i : Nat) (f : Co → Co) : (upd s i f).sigqueue = s.sigqueue := rfl
@[simp] theorem upd_sigwatchers (s : S) (i : Nat) (f : Co → Co) : (upd s i f).sigwatchers = s.sigwatchers := rfl
@[simp] theorem upd_jobs (s : S) (i : Nat) (f : Co → Co) : (upd s i f).jobs = s.jobs := rfl
@[simp] theorem upd_clock (s : S) (i : Nat) (f : Co → Co) : (upd s i f).clock = s.clock := rfl
@[simp] theorem upd_main (s : S) (i : Nat) (f : Co → Co) : (upd s i f).main = s.main := rfl
@[simp] theorem upd_envAsync (s : S) (i : Nat) (f : Co → Co) : (upd s i f).envAsync = s.envAsync := rfl
@[simp] theorem upd_envEnabled (s : S) (i : Nat) (f : Co → Co) : (upd s i f).envEnabled = s.envEnabled := rfl
@[simp] theorem upd_dead (s : S) (i : Nat) (f : Co → Co) : (upd s i f).dead = s.dead := rfl
@[simp] theorem upd_fault (s : S) (i : Nat) (f : Co → Co) : (upd s i f).fault = s.fault := rfl
@[simp] theorem upd_log (s : S) (i : Nat) (f : Co → Co) : (upd s i f).log = s.log := rfl
@[simp] theorem setPc_sco (s : S) (i : Nat) (p : Pc) : (setPc s i p).sco = s.sco := rfl
@[simp] theorem setPc_lists (s : S) (i : Nat) (p : Pc) : (setPc s i p).lists = s.lists := rfl
@[simp] theorem setPc_chan (s : S) (i : Nat) (p : Pc) : (setPc s i p).chan = s.chan := rfl
@[simp] theorem setPc_nchan (s : S) (i : Nat) (p : Pc) : (setPc s i p).nchan = s.nchan := rfl
@[simp] theorem setPc_mu (s : S) (i : Nat) (p : Pc) : (setPc s i p).mu = s.mu := rfl
@[simp] theorem setPc_wg (s : S) (i : Nat) (p : Pc) : (setPc s i p).wg = s.wg := rfl
@[simp] theorem setPc_all (s : S) (i : Nat) (p : Pc) : (setPc s i p).all = s.all := rfl
@[simp] theorem setPc_allCount (s : S) (i : Nat) (p : Pc) : (setPc s i p).allCount = s.allCount := rfl
@[simp] theorem setPc_dlq (s : S) (i : Nat) (p : Pc) : (setPc s i p).dlq = s.dlq := rfl
@[simp] theorem setPc_evw (s : S) (i : Nat) (p : Pc) : (setPc s i p).evw = s.evw := rfl
@[simp] theorem setPc_armed (s : S) (i : Nat) (p : Pc) : (setPc s i p).armed = s.armed := rfl
@[simp] theorem setPc_nsleepers (s : S) (i : Nat) (p : Pc) : (setPc s i p).nsleepers = s.nsleepers := rfl
@[simp] theorem setPc_nlocked (s : S) (i : Nat) (p : Pc) : (setPc s i p).nlocked = s.nlocked := rfl
@[simp] theorem setPc_nreceivers (s : S) (i : Nat) (p : Pc) : (setPc s i p).nreceivers = s.nreceivers := rfl
@[simp] theorem setPc_nsenders (s : S) (i : Nat) (p : Pc) : (setPc s i p).nsenders = s.nsenders := rfl
@[simp] theorem setPc_nwaitgroupers (s : S) (i : Nat) (p : Pc) : (setPc s i p).nwaitgroupers = s.nwaitgroupers := rfl
@[simp] theorem setPc_ncondwaiters (s : S) (i : Nat) (p : Pc) : (setPc s i p).ncondwaiters = s.ncondwaiters := rfl
@[simp] theorem setPc_nsuspended (s : S) (i : Nat) (p : Pc) : (setPc s i p).nsuspended = s.nsuspended := rfl
@[simp] theorem setPc_nevwaiters (s : S) (i : Nat) (p : Pc) : (setPc s i p).nevwaiters = s.nevwaiters := rfl
@[simp] theorem setPc_nsigwaiters (s : S) (i : Nat) (p : Pc) : (setPc s i p).nsigwaiters = s.nsigwaiters := rfl
@[simp] theorem setPc_nresumers (s : S) (i : Nat) (p : Pc) : (setPc s i p).nresumers = s.nresumers := rfl
@[simp] theorem setPc_niowaiters (s : S) (i : Nat) (p : Pc) : (setPc s i p).niowaiters = s.niowaiters := rfl
@[simp] theorem setPc_pool (s : S) (i : Nat) (p : Pc) : (setPc s i p).pool = s.pool := rfl
@[simp] theorem setPc_sigqueue (s : S) (i : Nat) (p : Pc) : (setPc s i p).sigqueue = s.sigqueue := rfl
@[simp] theorem setPc_sigwatchers (s : S) (i : Nat) (p : Pc) : (setPc s i p).sigwatchers = s.sigwatchers := rfl
@[simp] theorem setPc_jobs (s : S) (i : Nat) (p : Pc) : (setPc s i p).jobs = s.jobs := rfl
@[simp] theorem setPc_clock (s : S) (i : Nat) (p : Pc) : (setPc s i p).clock = s.clock := rfl
@[simp] theorem setPc_main (s : S) (i : Nat) (p : Pc) : (setPc s i p).main = s.main := rfl
@[simp] theorem setPc_envAsync (s : S) (i : Nat) (p : Pc) : (setPc s i p).envAsync = s.envAsync := rfl
@[simp] theorem setPc_envEnabled (s : S) (i : Nat) (p : Pc) : (setPc s i p).envEnabled = s.envEnabled := rfl
@[simp] theorem setPc_dead (s : S) (i : Nat) (p : Pc) : (setPc s i p).dead = s.dead := rfl
@[simp] theorem setPc_fault (s : S) (i : Nat) (p : Pc) : (setPc s i p).fault = s.fault := rfl
@[simp] theorem setPc_log (s : S) (i : Nat) (p : Pc) : (setPc s i p).log = s.log := rfl
@[simp] theorem note_sco (s : S) (e : Ev) : (note s e).sco = s.sco := rfl
@[simp] theorem note_co (s : S) (e : Ev) : (note s e).co = s.co := rfl
@[simp] theorem note_lists (s : S) (e : Ev) : (note s e).lists = s.lists := rfl
@[simp] theorem note_chan (s : S) (e : Ev) : (note s e).chan = s.chan := rfl
@[simp] theorem note_nchan (s : S) (e : Ev) : (note s e).nchan = s.nchan := rfl
@[simp] theorem note_mu (s : S) (e : Ev) : (note s e).mu = s.mu := rfl
@[simp] theorem note_wg (s : S) (e : Ev) : (note s e).wg = s.wg := rfl
@[simp] theorem note_all (s : S) (e : Ev) : (note s e).all = s.all := rfl
@[simp] theorem note_allCount (s : S) (e : Ev) : (note s e).allCount = s.allCount := rfl
@[simp] theorem note_dlq (s : S) (e : Ev) : (note s e).dlq = s.dlq := rfl
@[simp] theorem note_evw (s : S) (e : Ev) : (note s e).evw = s.evw := rfl
@[simp] theorem note_armed (s : S) (e : Ev) : (note s e).armed = s.armed := rfl
@[simp] theorem note_nsleepers (s : S) (e : Ev) : (note s e).nsleepers = s.nsleepers := rfl
@[simp] theorem note_nlocked (s : S) (e : Ev) : (note s e).nlocked = s.nlocked := rfl
@[simp] theorem note_nreceivers (s : S) (e : Ev) : (note s e).nreceivers = s.nreceivers := rfl
@[simp] theorem note_nsenders (s : S) (e : Ev) : (note s e).nsenders = s.nsenders := rfl
@[simp] theorem note_nwaitgroupers (s : S) (e : Ev) : (note s e).nwaitgroupers = s.nwaitgroupers := rfl
@[simp] theorem note_ncondwaiters (s : S) (e : Ev) : (note s e).ncondwaiters = s.ncondwaiters := rfl
@[simp] theorem note_nsuspended (s : S) (e : Ev) : (note s e).nsuspended = s.nsuspended := rfl
@[simp] theorem note_nevwaiters (s : S) (e : Ev) : (note s e).nevwaiters = s.nevwaiters := rfl
@[simp] theorem note_nsigwaiters (s : S) (e : Ev) : (note s e).nsigwaiters = s.nsigwaiters := rfl
@[simp] theorem note_nresumers (s : S) (e : Ev) : (note s e).nresumers = s.nresumers := rfl
@[simp] theorem note_niowaiters (s : S) (e : Ev) : (note s e).niowaiters = s.niowaiters := rfl
@[simp] theorem note_pool (s : S) (e : Ev) : (note s e).pool = s.pool := rfl
@[simp] theorem note_sigqueue (s : S) (e : Ev) : (note s e).sigqueue = s.sigqueue := rfl
@[simp] theorem note_sigwatchers (s : S) (e : Ev) : (note s e).sigwatchers = s.sigwatchers := rfl
@[simp] theorem note_jobs (s : S) (e : Ev) : (note s e).jobs = s.jobs := rfl
@[simp] theorem note_clock (s : S) (e : Ev) : (note s e).clock = s.clock := rfl
@[simp] theorem note_main (s : S) (e : Ev) : (note s e).main = s.main := rfl
@[simp] theorem note_envAsync (s : S) (e : Ev) : (note s e).envAsync = s.envAsync := rfl
@[simp] theorem note_envEnabled (s : S) (e : Ev) : (note s e).envEnabled = s.envEnabled := rfl
@[simp] theorem note_dead (s : S) (e : Ev) : (note s e).dead = s.dead := rfl
@[simp] theorem note_fault (s : S) (e : Ev) : (note s e).fault = s.fault := rfl
@[simp] theorem rm_sco (s : S) (n : Node) : (rm s n).sco = s.sco := rfl
@[simp] theorem rm_co (s : S) (n : Node) : (rm s n).co = s.co := rfl
@[simp] theorem rm_chan (s : S) (n : Node) : (rm s n).chan = s.chan := rfl
@[simp] theorem rm_nchan (s : S) (n : Node) : (rm s n).nchan = s.nchan := rfl
@[simp] theorem rm_mu (s : S) (n : Node) : (rm s n).mu = s.mu := rfl
@[simp] theorem rm_wg (s : S) (n : Node) : (rm s n).wg = s.wg := rfl
@[simp] theorem rm_all (s : S) (n : Node) : (rm s n).all = s.all := rfl
@[simp] theorem rm_allCount (s : S) (n : Node) : (rm s n).allCount = s.allCount := rfl
@[simp] theorem rm_dlq (s : S) (n : Node) : (rm s n).dlq = s.dlq := rfl
@[simp] theorem rm_evw (s : S) (n : Node) : (rm s n).evw = s.evw := rfl
@[simp] theorem rm_armed (s : S) (n : Node) : (rm s n).armed = s.armed := rfl
@[simp] theorem rm_nsleepers (s : S) (n : Node) : (rm s n).nsleepers = s.nsleepers := rfl
@[simp] theorem rm_nlocked (s : S) (n : Node) : (rm s n).nlocked = s.nlocked := rfl
@[simp] theorem rm_nreceivers (s : S) (n : Node) : (rm s n).nreceivers = s.nreceivers := rfl
@[simp] theorem rm_nsenders (s : S) (n : Node) : (rm s n).nsenders = s.nsenders := rfl
@[simp] theorem rm_nwaitgroupers (s : S) (n : Node) : (rm s n).nwaitgroupers = s.nwaitgroupers := rfl
@[simp] theorem rm_ncondwaiters (s : S) (n : Node) : (rm s n).ncondwaiters = s.ncondwaiters := rfl
@[simp] theorem rm_nsuspended (s : S) (n : Node) : (rm s n).nsuspended = s.nsuspended := rfl
@[simp] theorem rm_nevwaiters (s : S) (n : Node) : (rm s n).nevwaiters = s.nevwaiters := rfl
@[simp] theorem rm_nsigwaiters (s : S) (n : Node) : (rm s n).nsigwaiters = s.nsigwaiters := rfl
@[simp] theorem rm_nresumers (s : S) (n : Node) : (rm s n).nresumers = s.nresumers := rfl
@[simp] theorem rm_niowaiters (s : S) (n : Node) : (rm s n).niowaiters = s.niowaiters := rfl
@[simp] theorem rm_pool (s : S) (n : Node) : (rm s n).pool = s.pool := rfl
@[simp] theorem rm_sigqueue (s : S) (n : Node) : (rm s n).sigqueue = s.sigqueue := rfl
@[simp] theorem rm_sigwatchers (s : S) (n : Node) : (rm s n).sigwatchers = s.sigwatchers := rfl
@[simp] theorem rm_jobs (s : S) (n : Node) : (rm s n).jobs = s.jobs := rfl
@[simp] theorem rm_clock (s : S) (n : Node) : (rm s n).clock = s.clock := rfl
@[simp] theorem rm_main (s : S) (n : Node) : (rm s n).main = s.main := rfl
@[simp] theorem rm_envAsync (s : S) (n : Node) : (rm s n).envAsync = s.envAsync := rfl
@[simp] theorem rm_envEnabled (s : S) (n : Node) : (rm s n).envEnabled = s.envEnabled := rfl
@[simp] theorem rm_dead (s : S) (n : Node) : (rm s n).dead = s.dead := rfl
@[simp] theorem rm_fault (s : S) (n : Node) : (rm s n).fault = s.fault := rfl
@[simp] theorem rm_log (s : S) (n : Node) : (rm s n).log = s.log := rfl
@[simp] theorem setList_sco (s : S) (L : LName) (l : List Node) : (setList s L l).sco = s.sco := rfl
@[simp] theorem setList_co (s : S) (L : LName) (l : List Node) : (setList s L l).co = s.co := rfl
@[simp] theorem setList_chan (s : S) (L : LName) (l : List Node) : (setList s L l).chan = s.chan := rfl
@[simp] theorem setList_nchan (s : S) (L : LName) (l : List Node) : (setList s L l).nchan = s.nchan := rfl
@[simp] theorem setList_mu (s : S) (L : LName) (l : List Node) : (setList s L l).mu = s.mu := rfl
@[simp] theorem setList_wg (s : S) (L : LName) (l : List Node) : (setList s L l).wg = s.wg := rfl
@[simp] theorem setList_all (s : S) (L : LName) (l : List Node) : (setList s L l).all = s.all := rfl
@[simp] theorem setList_allCount (s : S) (L : LName) (l : List Node) : (setList s L l).allCount = s.allCount := rfl
@[simp] theorem setList_dlq (s : S) (L : LName) (l : List Node) : (setList s L l).dlq = s.dlq := rfl
@[simp] theorem setList_evw (s : S) (L : LName) (l : List Node) : (setList s L l).evw = s.evw := rfl
@[simp] theorem setList_armed (s : S) (L : LName) (l : List Node) : (setList s L l).armed = s.armed := rfl
@[simp] theorem setList_nsleepers (s : S) (L : LName) (l : List Node) : (setList s L l).nsleepers = s.nsleepers := rfl
@[simp] theorem setList_nlocked (s : S) (L : LName) (l : List Node) : (setList s L l).nlocked = s.nlocked := rfl
@[simp] theorem setList_nreceivers (s : S) (L : LName) (l : List Node) : (setList s L l).nreceivers = s.nreceivers := rfl
@[simp] theorem setList_nsenders (s : S) (L : LName) (l : List Node) : (setList s L l).nsenders = s.nsenders := rfl
@[simp] theorem setList_nwaitgroupers (s : S) (L : LName) (l : List Node) : (setList s L l).nwaitgroupers = s.nwaitgroupers := rfl
@[simp] theorem setList_ncondwaiters (s : S) (L : LName) (l : List Node) : (setList s L l).ncondwaiters = s.ncondwaiters := rfl
@[simp] theorem setList_nsuspended (s : S) (L : LName) (l : List Node) : (setList s L l).nsuspended = s.nsuspended := rfl
@[simp] theorem setList_nevwaiters (s : S) (L : LName) (l : List Node) : (setList s L l).nevwaiters = s.nevwaiters := rfl
@[simp] theorem setList_nsigwaiters (s : S) (L : LName) (l : List Node) : (setList s L l).nsigwaiters = s.nsigwaiters := rfl
@[simp] theorem setList_nresumers (s : S) (L : LName) (l : List Node) : (setList s L l).nresumers = s.nresumers := rfl
@[simp] theorem setList_niowaiters (s : S) (L : LName) (l : List Node) : (setList s L l).niowaiters = s.niowaiters := rfl
@[simp] theorem setList_pool (s : S) (L : LName) (l : List Node) : (setList s L l).pool = s.pool := rfl
@[simp] theorem setList_sigqueue (s : S) (L : LName) (l : List Node) : (setList s L l).sigqueue = s.sigqueue := rfl
@[simp] theorem setList_sigwatchers (s : S) (L : LName) (l : List Node) : (setList s L l).sigwatchers = s.sigwatchers := rfl
@[simp] theorem setList_jobs (s : S) (L : LName) (l : List Node) : (setList s L l).jobs = s.jobs := rfl
@[simp] theorem setList_clock (s : S) (L : LName) (l : List Node) : (setList s L l).clock = s.clock := rfl
@[simp] theorem setList_main (s : S) (L : LName) (l : List Node) : (setList s L l).main = s.main := rfl
@[simp] theorem setList_envAsync (s : S) (L : LName) (l : List Node) : (setList s L l).envAsync = s.envAsync := rfl
@[simp] theorem setList_envEnabled (s : S) (L : LName) (l : List Node) : (setList s L l).envEnabled = s.envEnabled := rfl
@[simp] theorem setList_dead (s : S) (L : LName) (l : List Node) : (setList s L l).dead = s.dead := rfl
@[simp] theorem setList_fault (s : S) (L : LName) (l : List Node) : (setList s L l).fault = s.fault := rfl
@[simp] theorem setList_log (s : S) (L : LName) (l : List Node) : (setList s L l).log = s.log := rfl
@[simp] theorem push_sco (s : S) (L : LName) (n : Node) : (push s L n).sco = s.sco := rfl
@[simp] theorem push_co (s : S) (L : LName) (n : Node) : (push s L n).co = s.co := rfl
@[simp] theorem push_chan (s : S) (L : LName) (n : Node) : (push s L n).chan = s.chan := rfl
@[simp] theorem push_nchan (s : S) (L : LName) (n : Node) : (push s L n).nchan = s.nchan := rfl
@[simp] theorem push_mu (s : S) (L : LName) (n : Node) : (push s L n).mu = s.mu := rfl
@[simp] theorem push_wg (s : S) (L : LName) (n : Node) : (push s L n).wg = s.wg := rfl
@[simp] theorem push_all (s : S) (L : LName) (n : Node) : (push s L n).all = s.all := rfl
@[simp] theorem push_allCount (s : S) (L : LName) (n : Node) : (push s L n).allCount = s.allCount := rfl
@[simp] theorem push_dlq (s : S) (L : LName) (n : Node) : (push s L n).dlq = s.dlq := rfl
@[simp] theorem push_evw (s : S) (L : LName) (n : Node) : (push s L n).evw = s.evw := rfl
@[simp] theorem push_armed (s : S) (L : LName) (n : Node) : (push s L n).armed = s.armed := rfl
@[simp] theorem push_nsleepers (s : S) (L : LName) (n : Node) : (push s L n).nsleepers = s.nsleepers := rfl
@[simp] theorem push_nlocked (s : S) (L : LName) (n : Node) : (push s L n).nlocked = s.nlocked := rfl
@[simp] theorem push_nreceivers (s : S) (L : LName) (n : Node) : (push s L n).nreceivers = s.nreceivers := rfl
@[simp] theorem push_nsenders (s : S) (L : LName) (n : Node) : (push s L n).nsenders = s.nsenders := rfl
@[simp] theorem push_nwaitgroupers (s : S) (L : LName) (n : Node) : (push s L n).nwaitgroupers = s.nwaitgroupers := rfl
@[simp] theorem push_ncondwaiters (s : S) (L : LName) (n : Node) : (push s L n).ncondwaiters = s.ncondwaiters := rfl
@[simp] theorem push_nsuspended (s : S) (L : LName) (n : Node) : (push s L n).nsuspended = s.nsuspended := rfl
@[simp] theorem push_nevwaiters (s : S) (L : LName) (n : Node) : (push s L n).nevwaiters = s.nevwaiters := rfl
@[simp] theorem push_nsigwaiters (s : S) (L : LName) (n : Node) : (push s L n).nsigwaiters = s.nsigwaiters := rfl
@[simp] theorem push_nresumers (s : S) (L : LName) (n : Node) : (push s L n).nresumers = s.nresumers := rfl
@[simp] theorem push_niowaiters (s : S) (L : LName) (n : Node) : (push s L n).niowaiters = s.niowaiters := rfl
@[simp] theorem push_pool (s : S) (L : LName) (n : Node) : (push s L n).pool = s.pool := rfl
@[simp] theorem push_sigqueue (s : S) (L : LName) (n : Node) : (push s L n).sigqueue = s.sigqueue := rfl
@[simp] theorem push_sigwatchers (s : S) (L : LName) (n : Node) : (push s L n).sigwatchers = s.sigwatchers := rfl
@[simp] theorem push_jobs (s : S) (L : LName) (n : Node) : (push s L n).jobs = s.jobs := rfl
@[simp] theorem push_clock (s : S) (L : LName) (n : Node) : (push s L n).clock = s.clock := rfl
@[simp] theorem push_main (s : S) (L : LName) (n : Node) : (push s L n).main = s.main := rfl
@[simp] theorem push_envAsync (s : S) (L : LName) (n : Node) : (push s L n).envAsync = s.envAsync := rfl
@[simp] theorem push_envEnabled (s : S) (L : LName) (n : Node) : (push s L n).envEnabled = s.envEnabled := rfl
@[simp] theorem push_dead (s : S) (L : LName) (n : Node) : (push s L n).dead = s.dead := rfl
@[simp] theorem push_fault (s : S) (L : LName) (n : Node) : (push s L n).fault = s.fault := rfl
theorem mem_leave {s : S} {i : Nat} {e : Ev} (h : e ∈ leave s i) : ∃ c, e = .withdraw c i ∧ sendChan s i = some c ∧ .co i ∈ s.lists (.chanQ c) := by
  unfold leave at h; split at h
  · rename_i c hc
    split at h
    · simp at h; exact ⟨c, h, hc, ‹_›⟩
    · simp at h
  · simp at h
theorem leave_nil {s : S} {i : Nat} (h : ∀ c, sendChan s i = some c → .co i ∉ s.lists (.chanQ c)) : leave s i = [] := by
  cases e : leave s i with
  | nil => rfl
  | cons x q => obtain ⟨c, _, h1, h2⟩ := mem_leave (s := s) (i := i) (e := x) (by simp [e]); exact absurd h2 (h c h1)
theorem filter_leave_self {s : S} {i : Nat} {p : Ev → Bool} (h : ∀ c, p (.withdraw c i) = true) : (leave s i).filter p = leave s i := by
  rw [List.filter_eq_self]; intro e he; obtain ⟨c, rfl, _⟩ := mem_leave he; exact h c
theorem filter_leave_nil {s : S} {i : Nat} {p : Ev → Bool} (h : ∀ c, p (.withdraw c i) = false) : (leave s i).filter p = [] := by
  rw [List.filter_eq_nil_iff]; intro e he; obtain ⟨c, rfl, _⟩ := mem_leave he; simp [h c]
theorem countP_leave {s : S} {i : Nat} {p : Ev → Bool} (h : ∀ c, p (.withdraw c i) = false) (l : List Ev) : (leave s i ++ l).countP p = l.countP p := by
  rw [List.countP_append, List.countP_eq_zero.mpr, Nat.zero_add]
  intro e he; obtain ⟨c, rfl, _⟩ := mem_leave he; simp [h c]
@[simp] theorem push_log (s : S) (L : LName) (n : Node) : (push s L n).log = s.log := rfl
@[simp] theorem schedResume_sco (s : S) (i : Nat) : (schedResume s i).sco = s.sco := rfl
@[simp] theorem schedResume_co (s : S) (i : Nat) : (schedResume s i).co = s.co := rfl
@[simp] theorem schedResume_chan (s : S) (i : Nat) : (schedResume s i).chan = s.chan := rfl
@[simp] theorem schedResume_nchan (s : S) (i : Nat) : (schedResume s i).nchan = s.nchan := rfl
@[simp] theorem schedResume_mu (s : S) (i : Nat) : (schedResume s i).mu = s.mu := rfl
@[simp] theorem schedResume_wg (s : S) (i : Nat) : (schedResume s i).wg = s.wg := rfl
@[simp] theorem schedResume_all (s : S) (i : Nat) : (schedResume s i).all = s.all := rfl
@[simp] theorem schedResume_allCount (s : S) (i : Nat) : (schedResume s i).allCount = s.allCount := rfl
@[simp] theorem schedResume_dlq (s : S) (i : Nat) : (schedResume s i).dlq = s.dlq := rfl
@[simp] theorem schedResume_evw (s : S) (i : Nat) : (schedResume s i).evw = s.evw := rfl
@[simp] theorem schedResume_armed (s : S) (i : Nat) : (schedResume s i).armed = s.armed := rfl
@[simp] theorem schedResume_nsleepers (s : S) (i : Nat) : (schedResume s i).nsleepers = s.nsleepers := rfl
@[simp] theorem schedResume_nlocked (s : S) (i : Nat) : (schedResume s i).nlocked = s.nlocked := rfl
@[simp] theorem schedResume_nreceivers (s : S) (i : Nat) : (schedResume s i).nreceivers = s.nreceivers := rfl
@[simp] theorem schedResume_nsenders (s : S) (i : Nat) : (schedResume s i).nsenders = s.nsenders := rfl
@[simp] theorem schedResume_nwaitgroupers (s : S) (i : Nat) : (schedResume s i).nwaitgroupers = s.nwaitgroupers := rfl
@[simp] theorem schedResume_ncondwaiters (s : S) (i : Nat) : (schedResume s i).ncondwaiters = s.ncondwaiters := rfl
@[simp] theorem schedResume_nsuspended (s : S) (i : Nat) : (schedResume s i).nsuspended = s.nsuspended := rfl
@[simp] theorem schedResume_nevwaiters (s : S) (i : Nat) : (schedResume s i).nevwaiters = s.nevwaiters := rfl
@[simp] theorem schedResume_nsigwaiters (s : S) (i : Nat) : (schedResume s i).nsigwaiters = s.nsigwaiters := rfl
@[simp] theorem schedResume_niowaiters (s : S) (i : Nat) : (schedResume s i).niowaiters = s.niowaiters := rfl
@[simp] theorem schedResume_pool (s : S) (i : Nat) : (schedResume s i).pool = s.pool := rfl
@[simp] theorem schedResume_sigqueue (s : S) (i : Nat) : (schedResume s i).sigqueue = s.sigqueue := rfl
@[simp] theorem schedResume_sigwatchers (s : S) (i : Nat) : (schedResume s i).sigwatchers = s.sigwatchers := rfl
@[simp] theorem schedResume_jobs (s : S) (i : Nat) : (schedResume s i).jobs = s.jobs := rfl
@[simp] theorem schedResume_clock (s : S) (i : Nat) : (schedResume s i).clock = s.clock := rfl
@[simp] theorem schedResume_main (s : S) (i : Nat) : (schedResume s i).main = s.main := rfl
@[simp] theorem schedResume_envAsync (s : S) (i : Nat) : (schedResume s i).envAsync = s.envAsync := rfl
@[simp] theorem schedResume_envEnabled (s : S) (i : Nat) : (schedResume s i).envEnabled = s.envEnabled := rfl
@[simp] theorem schedResume_dead (s : S) (i : Nat) : (schedResume s i).dead = s.dead := rfl
@[simp] theorem schedResume_fault (s : S) (i : Nat) : (schedResume s i).fault = s.fault := rfl
@[simp] theorem schedResume_log (s : S) (i : Nat) : (schedResume s i).log = s.log := rfl
@[simp] theorem schedAll_sco (s : S) (L : LName) (q : List Node) : (schedAll s L q).sco = s.sco := by
  induction q generalizing s with
  | nil => rfl
  | cons n q ih => simp [schedAll, ih]
@[simp] theorem schedAll_co (s : S) (L : LName) (q : List Node) : (schedAll s L q).co = s.co := by
  induction q generalizing s with
  | nil => rfl
  | cons n q ih => simp [schedAll, ih]
@[simp] theorem schedAll_chan (s : S) (L : LName) (q : List Node) : (schedAll s L q).chan = s.chan := by
  induction q generalizing s with
  | nil => rfl
  | cons n q ih => simp [schedAll, ih]
@[simp] theorem schedAll_nchan (s : S) (L : LName) (q : List Node) : (schedAll s L q).nchan = s.nchan := by
  induction q generalizing s with
  | nil => rfl
  | cons n q ih => simp [schedAll, ih]
@[simp] theorem schedAll_mu (s : S) (L : LName) (q : List Node) : (schedAll s L q).mu = s.mu := by
  induction q generalizing s with
  | nil => rfl
  | cons n q ih => simp [schedAll, ih]
@[simp] theorem schedAll_wg (s : S) (L : LName) (q : List Node) : (schedAll s L q).wg = s.wg := by
  induction q generalizing s with
  | nil => rfl
  | cons n q ih => simp [schedAll, ih]
@[simp] theorem schedAll_all (s : S) (L : LName) (q : List Node) : (schedAll s L q).all = s.all := by
  induction q generalizing s with
  | nil => rfl
  | cons n q ih => simp [schedAll, ih]
@[simp] theorem schedAll_allCount (s : S) (L : LName) (q : List Node) : (schedAll s L q).allCount = s.allCount := by
  induction q generalizing s with
  | nil => rfl
  | cons n q ih => simp [schedAll, ih]
@[simp] theorem schedAll_dlq (s : S) (L : LName) (q : List Node) : (schedAll s L q).dlq = s.dlq := by
  induction q generalizing s with
  | nil => rfl
  | cons n q ih => simp [schedAll, ih]
@[simp] theorem schedAll_evw (s : S) (L : LName) (q : List Node) : (schedAll s L q).evw = s.evw := by
  induction q generalizing s with
  | nil => rfl
  | cons n q ih => simp [schedAll, ih]
@[simp] theorem schedAll_armed (s : S) (L : LName) (q : List Node) : (schedAll s L q).armed = s.armed := by
  induction q generalizing s with
  | nil => rfl
  | cons n q ih => simp [schedAll, ih]
@[simp] theorem schedAll_nsleepers (s : S) (L : LName) (q : List Node) : (schedAll s L q).nsleepers = s.nsleepers := by
  induction q generalizing s with
  | nil => rfl
  | cons n q ih => simp [schedAll, ih]
@[simp] theorem schedAll_nlocked (s : S) (L : LName) (q : List Node) : (schedAll s L q).nlocked = s.nlocked := by
  induction q generalizing s with
  | nil => rfl
  | cons n q ih => simp [schedAll, ih]
@[simp] theorem schedAll_nreceivers (s : S) (L : LName) (q : List Node) : (schedAll s L q).nreceivers = s.nreceivers := by
  induction q generalizing s with
  | nil => rfl
  | cons n q ih => simp [schedAll, ih]
@[simp] theorem schedAll_nsenders (s : S) (L : LName) (q : List Node) : (schedAll s L q).nsenders = s.nsenders := by
  induction q generalizing s with
  | nil => rfl
  | cons n q ih => simp [schedAll, ih]
@[simp] theorem schedAll_nwaitgroupers (s : S) (L : LName) (q : List Node) : (schedAll s L q).nwaitgroupers = s.nwaitgroupers := by
  induction q generalizing s with
  | nil => rfl
  | cons n q ih => simp [schedAll, ih]
@[simp] theorem schedAll_ncondwaiters (s : S) (L : LName) (q : List Node) : (schedAll s L q).ncondwaiters = s.ncondwaiters := by
  induction q generalizing s with
  | nil => rfl
  | cons n q ih => simp [schedAll, ih]
@[simp] theorem schedAll_nsuspended (s : S) (L : LName) (q : List Node) : (schedAll s L q).nsuspended = s.nsuspended := by
  induction q generalizing s with
  | nil => rfl
  | cons n q ih => simp [schedAll, ih]
@[simp] theorem schedAll_nevwaiters (s : S) (L : LName) (q : List Node) : (schedAll s L q).nevwaiters = s.nevwaiters := by
  induction q generalizing s with
  | nil => rfl
  | cons n q ih => simp [schedAll, ih]
@[simp] theorem schedAll_nsigwaiters (s : S) (L : LName) (q : List Node) : (schedAll s L q).nsigwaiters = s.nsigwaiters := by
  induction q generalizing s with
  | nil => rfl
  | cons n q ih => simp [schedAll, ih]
@[simp] theorem schedAll_niowaiters (s : S) (L : LName) (q : List Node) : (schedAll s L q).niowaiters = s.niowaiters := by
  induction q generalizing s with
  | nil => rfl
  | cons n q ih => simp [schedAll, ih]
@[simp] theorem schedAll_pool (s : S) (L : LName) (q : List Node) : (schedAll s L q).pool = s.pool := by
  induction q generalizing s with
  | nil => rfl
  | cons n q ih => simp [schedAll, ih]
@[simp] theorem schedAll_sigqueue (s : S) (L : LName) (q : List Node) : (schedAll s L q).sigqueue = s.sigqueue := by
  induction q generalizing s with
  | nil => rfl
  | cons n q ih => simp [schedAll, ih]
@[simp] theorem schedAll_sigwatchers (s : S) (L : LName) (q : List Node) : (schedAll s L q).sigwatchers = s.sigwatchers := by
  induction q generalizing s with
  | nil => rfl
  | cons n q ih => simp [schedAll, ih]
@[simp] theorem schedAll_jobs (s : S) (L : LName) (q : List Node) : (schedAll s L q).jobs = s.jobs := by
  induction q generalizing s with
  | nil => rfl
  | cons n q ih => simp [schedAll, ih]
@[simp] theorem schedAll_clock (s : S) (L : LName) (q : List Node) : (schedAll s L q).clock = s.clock := by
  induction q generalizing s with
  | nil => rfl
  | cons n q ih => simp [schedAll, ih]
@[simp] theorem schedAll_main (s : S) (L : LName) (q : List Node) : (schedAll s L q).main = s.main := by
  induction q generalizing s with
  | nil => rfl
  | cons n q ih => simp [schedAll, ih]
@[simp] theorem schedAll_envAsync (s : S) (L : LName) (q : List Node) : (schedAll s L q).envAsync = s.envAsync := by
  induction q generalizing s with
  | nil => rfl
  | cons n q ih => simp [schedAll, ih]
@[simp] theorem schedAll_envEnabled (s : S) (L : LName) (q : List Node) : (schedAll s L q).envEnabled = s.envEnabled := by
  induction q generalizing s with
  | nil => rfl
  | cons n q ih => simp [schedAll, ih]
@[simp] theorem schedAll_dead (s : S) (L : LName) (q : List Node) : (schedAll s L q).dead = s.dead := by
  induction q generalizing s with
  | nil => rfl
  | cons n q ih => simp [schedAll, ih]
@[simp] theorem schedAll_fault (s : S) (L : LName) (q : List Node) : (schedAll s L q).fault = s.fault := by
  induction q generalizing s with
  | nil => rfl
  | cons n q ih => simp [schedAll, ih]
@[simp] theorem coyield_lists (s : S) (i n : Nat) (a : Aft) : (coyield s i n a).lists = s.lists := rfl
@[simp] theorem coyield_chan (s : S) (i n : Nat) (a : Aft) : (coyield s i n a).chan = s.chan := rfl
@[simp] theorem coyield_nchan (s : S) (i n : Nat) (a : Aft) : (coyield s i n a).nchan = s.nchan := rfl
@[simp] theorem coyield_mu (s : S) (i n : Nat) (a : Aft) : (coyield s i n a).mu = s.mu := rfl
@[simp] theorem coyield_wg (s : S) (i n : Nat) (a : Aft) : (coyield s i n a).wg = s.wg := rfl
@[simp] theorem coyield_all (s : S) (i n : Nat) (a : Aft) : (coyield s i n a).all = s.all := rfl
@[simp] theorem coyield_allCount (s : S) (i n : Nat) (a : Aft) : (coyield s i n a).allCount = s.allCount := rfl
@[simp] theorem coyield_dlq (s : S) (i n : Nat) (a : Aft) : (coyield s i n a).dlq = s.dlq := rfl
@[simp] theorem coyield_evw (s : S) (i n : Nat) (a : Aft) : (coyield s i n a).evw = s.evw := rfl
@[simp] theorem coyield_armed (s : S) (i n : Nat) (a : Aft) : (coyield s i n a).armed = s.armed := rfl
@[simp] theorem coyield_nsleepers (s : S) (i n : Nat) (a : Aft) : (coyield s i n a).nsleepers = s.nsleepers := rfl
@[simp] theorem coyield_nlocked (s : S) (i n : Nat) (a : Aft) : (coyield s i n a).nlocked = s.nlocked := rfl
@[simp] theorem coyield_nreceivers (s : S) (i n : Nat) (a : Aft) : (coyield s i n a).nreceivers = s.nreceivers := rfl
@[simp] theorem coyield_nsenders (s : S) (i n : Nat) (a : Aft) : (coyield s i n a).nsenders = s.nsenders := rfl
@[simp] theorem coyield_nwaitgroupers (s : S) (i n : Nat) (a : Aft) : (coyield s i n a).nwaitgroupers = s.nwaitgroupers := rfl
@[simp] theorem coyield_ncondwaiters (s : S) (i n : Nat) (a : Aft) : (coyield s i n a).ncondwaiters = s.ncondwaiters := rfl
@[simp] theorem coyield_nsuspended (s : S) (i n : Nat) (a : Aft) : (coyield s i n a).nsuspended = s.nsuspended := rfl
@[simp] theorem coyield_nevwaiters (s : S) (i n : Nat) (a : Aft) : (coyield s i n a).nevwaiters = s.nevwaiters := rfl
@[simp] theorem coyield_nsigwaiters (s : S) (i n : Nat) (a : Aft) : (coyield s i n a).nsigwaiters = s.nsigwaiters := rfl
@[simp] theorem coyield_nresumers (s : S) (i n : Nat) (a : Aft) : (coyield s i n a).nresumers = s.nresumers := rfl
@[simp] theorem coyield_niowaiters (s : S) (i n : Nat) (a : Aft) : (coyield s i n a).niowaiters = s.niowaiters := rfl
@[simp] theorem coyield_pool (s : S) (i n : Nat) (a : Aft) : (coyield s i n a).pool = s.pool := rfl
@[simp] theorem coyield_sigqueue (s : S) (i n : Nat) (a : Aft) : (coyield s i n a).sigqueue = s.sigqueue := rfl
@[simp] theorem coyield_sigwatchers (s : S) (i n : Nat) (a : Aft) : (coyield s i n a).sigwatchers = s.sigwatchers := rfl
@[simp] theorem coyield_jobs (s : S) (i n : Nat) (a : Aft) : (coyield s i n a).jobs = s.jobs := rfl
@[simp] theorem coyield_clock (s : S) (i n : Nat) (a : Aft) : (coyield s i n a).clock = s.clock := rfl
@[simp] theorem coyield_main (s : S) (i n : Nat) (a : Aft) : (coyield s i n a).main = s.main := rfl
@[simp] theorem coyield_envAsync (s : S) (i n : Nat) (a : Aft) : (coyield s i n a).envAsync = s.envAsync := rfl
@[simp] theorem coyield_envEnabled (s : S) (i n : Nat) (a : Aft) : (coyield s i n a).envEnabled = s.envEnabled := rfl
@[simp] theorem coyield_dead (s : S) (i n : Nat) (a : Aft) : (coyield s i n a).dead = s.dead := rfl
@[simp] theorem coyield_fault (s : S) (i n : Nat) (a : Aft) : (coyield s i n a).fault = s.fault := rfl
@[simp] theorem coyield_log (s : S) (i n : Nat) (a : Aft) : (coyield s i n a).log = s.log := rfl
@[simp] theorem yfsr_lists (s : S) (i n : Nat) (a : Aft) : (yfsr s i n a).lists = s.lists := rfl
@[simp] theorem yfsr_chan (s : S) (i n : Nat) (a : Aft) : (yfsr s i n a).chan = s.chan := rfl
@[simp] theorem yfsr_nchan (s : S) (i n : Nat) (a : Aft) : (yfsr s i n a).nchan = s.nchan := rfl
@[simp] theorem yfsr_mu (s : S) (i n : Nat) (a : Aft) : (yfsr s i n a).mu = s.mu := rfl
@[simp] theorem yfsr_wg (s : S) (i n : Nat) (a : Aft) : (yfsr s i n a).wg = s.wg := rfl
@[simp] theorem yfsr_all (s : S) (i n : Nat) (a : Aft) : (yfsr s i n a).all = s.all := rfl
@[simp] theorem yfsr_allCount (s : S) (i n : Nat) (a : Aft) : (yfsr s i n a).allCount = s.allCount := rfl
@[simp] theorem yfsr_dlq (s : S) (i n : Nat) (a : Aft) : (yfsr s i n a).dlq = s.dlq := rfl
@[simp] theorem yfsr_evw (s : S) (i n : Nat) (a : Aft) : (yfsr s i n a).evw = s.evw := rfl
@[simp] theorem yfsr_armed (s : S) (i n : Nat) (a : Aft) : (yfsr s i n a).armed = s.armed := rfl
@[simp] theorem yfsr_nsleepers (s : S) (i n : Nat) (a : Aft) : (yfsr s i n a).nsleepers = s.nsleepers := rfl
@[simp] theorem yfsr_nlocked (s : S) (i n : Nat) (a : Aft) : (yfsr s i n a).nlocked = s.nlocked := rfl
@[simp] theorem yfsr_nreceivers (s : S) (i n : Nat) (a : Aft) : (yfsr s i n a).nreceivers = s.nreceivers := rfl
@[simp] theorem yfsr_nsenders (s : S) (i n : Nat) (a : Aft) : (yfsr s i n a).nsenders = s.nsenders := rfl
@[simp] theorem yfsr_nwaitgroupers (s : S) (i n : Nat) (a : Aft) : (yfsr s i n a).nwaitgroupers = s.nwaitgroupers := rfl
@[simp] theorem yfsr_ncondwaiters (s : S) (i n : Nat) (a : Aft) : (yfsr s i n a).ncondwaiters = s.ncondwaiters := rfl
@[simp] theorem yfsr_nsuspended (s : S) (i n : Nat) (a : Aft) : (yfsr s i n a).nsuspended = s.nsuspended := rfl
@[simp] theorem yfsr_nevwaiters (s : S) (i n : Nat) (a : Aft) : (yfsr s i n a).nevwaiters = s.nevwaiters := rfl
@[simp] theorem yfsr_nsigwaiters (s : S) (i n : Nat) (a : Aft) : (yfsr s i n a).nsigwaiters = s.nsigwaiters := rfl
@[simp] theorem yfsr_nresumers (s : S) (i n : Nat) (a : Aft) : (yfsr s i n a).nresumers = s.nresumers := rfl
@[simp] theorem yfsr_niowaiters (s : S) (i n : Nat) (a : Aft) : (yfsr s i n a).niowaiters = s.niowaiters := rfl
@[simp] theorem yfsr_pool (s : S) (i n : Nat) (a : Aft) : (yfsr s i n a).pool = s.pool := rfl
@[simp] theorem yfsr_sigqueue (s : S) (i n : Nat) (a : Aft) : (yfsr s i n a).sigqueue = s.sigqueue := rfl
@[simp] theorem yfsr_sigwatchers (s : S) (i n : Nat) (a : Aft) : (yfsr s i n a).sigwatchers = s.sigwatchers := rfl
@[simp] theorem yfsr_jobs (s : S) (i n : Nat) (a : Aft) : (yfsr s i n a).jobs = s.jobs := rfl
@[simp] theorem yfsr_clock (s : S) (i n : Nat) (a : Aft) : (yfsr s i n a).clock = s.clock := rfl
@[simp] theorem yfsr_main (s : S) (i n : Nat) (a : Aft) : (yfsr s i n a).main = s.main := rfl
@[simp] theorem yfsr_envAsync (s : S) (i n : Nat) (a : Aft) : (yfsr s i n a).envAsync = s.envAsync := rfl
@[simp] theorem yfsr_envEnabled (s : S) (i n : Nat) (a : Aft) : (yfsr s i n a).envEnabled = s.envEnabled := rfl
@[simp] theorem yfsr_dead (s : S) (i n : Nat) (a : Aft) : (yfsr s i n a).dead = s.dead := rfl
@[simp] theorem yfsr_fault (s : S) (i n : Nat) (a : Aft) : (yfsr s i n a).fault = s.fault := rfl
@[simp] theorem yfsr_log (s : S) (i n : Nat) (a : Aft) : (yfsr s i n a).log = s.log := rfl
@[simp] theorem scoResume_co (s : S) (i : Nat) : (scoResume s i).co = s.co := rfl
@[simp] theorem scoResume_lists (s : S) (i : Nat) : (scoResume s i).lists = s.lists := rfl
@[simp] theorem scoResume_chan (s : S) (i : Nat) : (scoResume s i).chan = s.chan := rfl
@[simp] theorem scoResume_nchan (s : S) (i : Nat) : (scoResume s i).nchan = s.nchan := rfl
@[simp] theorem scoResume_mu (s : S) (i : Nat) : (scoResume s i).mu = s.mu := rfl
@[simp] theorem scoResume_wg (s : S) (i : Nat) : (scoResume s i).wg = s.wg := rfl
@[simp] theorem scoResume_all (s : S) (i : Nat) : (scoResume s i).all = s.all := rfl
@[simp] theorem scoResume_allCount (s : S) (i : Nat) : (scoResume s i).allCount = s.allCount := rfl
@[simp] theorem scoResume_dlq (s : S) (i : Nat) : (scoResume s i).dlq = s.dlq := rfl
@[simp] theorem scoResume_evw (s : S) (i : Nat) : (scoResume s i).evw = s.evw := rfl
@[simp] theorem scoResume_armed (s : S) (i : Nat) : (scoResume s i).armed = s.armed := rfl
@[simp] theorem scoResume_nsleepers (s : S) (i : Nat) : (scoResume s i).nsleepers = s.nsleepers := rfl
@[simp] theorem scoResume_nlocked (s : S) (i : Nat) : (scoResume s i).nlocked = s.nlocked := rfl
@[simp] theorem scoResume_nreceivers (s : S) (i : Nat) : (scoResume s i).nreceivers = s.nreceivers := rfl
@[simp] theorem scoResume_nsenders (s : S) (i : Nat) : (scoResume s i).nsenders = s.nsenders := rfl
@[simp] theorem scoResume_nwaitgroupers (s : S) (i : Nat) : (scoResume s i).nwaitgroupers = s.nwaitgroupers := rfl
@[simp] theorem scoResume_ncondwaiters (s : S) (i : Nat) : (scoResume s i).ncondwaiters = s.ncondwaiters := rfl
@[simp] theorem scoResume_nsuspended (s : S) (i : Nat) : (scoResume s i).nsuspended = s.nsuspended := rfl
@[simp] theorem scoResume_nevwaiters (s : S) (i : Nat) : (scoResume s i).nevwaiters = s.nevwaiters := rfl
@[simp] theorem scoResume_nsigwaiters (s : S) (i : Nat) : (scoResume s i).nsigwaiters = s.nsigwaiters := rfl
@[simp] theorem scoResume_nresumers (s : S) (i : Nat) : (scoResume s i).nresumers = s.nresumers := rfl
@[simp] theorem scoResume_niowaiters (s : S) (i : Nat) : (scoResume s i).niowaiters = s.niowaiters := rfl
@[simp] theorem scoResume_pool (s : S) (i : Nat) : (scoResume s i).pool = s.pool := rfl
@[simp] theorem scoResume_sigqueue (s : S) (i : Nat) : (scoResume s i).sigqueue = s.sigqueue := rfl
@[simp] theorem scoResume_sigwatchers (s : S) (i : Nat) : (scoResume s i).sigwatchers = s.sigwatchers := rfl
@[simp] theorem scoResume_jobs (s : S) (i : Nat) : (scoResume s i).jobs = s.jobs := rfl
@[simp] theorem scoResume_clock (s : S) (i : Nat) : (scoResume s i).clock = s.clock := rfl
@[simp] theorem scoResume_main (s : S) (i : Nat) : (scoResume s i).main = s.main := rfl
@[simp] theorem scoResume_envAsync (s : S) (i : Nat) : (scoResume s i).envAsync = s.envAsync := rfl
@[simp] theorem scoResume_envEnabled (s : S) (i : Nat) : (scoResume s i).envEnabled = s.envEnabled := rfl
@[simp] theorem scoResume_dead (s : S) (i : Nat) : (scoResume s i).dead = s.dead := rfl
@[simp] theorem scoResume_fault (s : S) (i : Nat) : (scoResume s i).fault = s.fault := rfl
@[simp] theorem scoResume_log (s : S) (i : Nat) : (scoResume s i).log = s.log := rfl
@[simp] theorem copause_lists (s : S) (i : Nat) (dl : Int) (b : Blk) : (copause s i dl b).lists = s.lists := by unfold copause; (try dsimp only); (repeat' split) <;> simp
@[simp] theorem copause_chan (s : S) (i : Nat) (dl : Int) (b : Blk) : (copause s i dl b).chan = s.chan := by unfold copause; (try dsimp only); (repeat' split) <;> simp
@[simp] theorem copause_nchan (s : S) (i : Nat) (dl : Int) (b : Blk) : (copause s i dl b).nchan = s.nchan := by unfold copause; (try dsimp only); (repeat' split) <;> simp
@[simp] theorem copause_mu (s : S) (i : Nat) (dl : Int) (b : Blk) : (copause s i dl b).mu = s.mu := by unfold copause; (try dsimp only); (repeat' split) <;> simp
@[simp] theorem copause_wg (s : S) (i : Nat) (dl : Int) (b : Blk) : (copause s i dl b).wg = s.wg := by unfold copause; (try dsimp only); (repeat' split) <;> simp
@[simp] theorem copause_all (s : S) (i : Nat) (dl : Int) (b : Blk) : (copause s i dl b).all = s.all := by unfold copause; (try dsimp only); (repeat' split) <;> simp
@[simp] theorem copause_allCount (s : S) (i : Nat) (dl : Int) (b : Blk) : (copause s i dl b).allCount = s.allCount := by unfold copause; (try dsimp only); (repeat' split) <;> simp
@[simp] theorem copause_evw (s : S) (i : Nat) (dl : Int) (b : Blk) : (copause s i dl b).evw = s.evw := by unfold copause; (try dsimp only); (repeat' split) <;> simp
@[simp] theorem copause_armed (s : S) (i : Nat) (dl : Int) (b : Blk) : (copause s i dl b).armed = s.armed := by unfold copause; (try dsimp only); (repeat' split) <;> simp
@[simp] theorem copause_nsleepers (s : S) (i : Nat) (dl : Int) (b : Blk) : (copause s i dl b).nsleepers = s.nsleepers := by unfold copause; (try dsimp only); (repeat' split) <;> simp
@[simp] theorem copause_nlocked (s : S) (i : Nat) (dl : Int) (b : Blk) : (copause s i dl b).nlocked = s.nlocked := by unfold copause; (try dsimp only); (repeat' split) <;> simp
@[simp] theorem copause_nreceivers (s : S) (i : Nat) (dl : Int) (b : Blk) : (copause s i dl b).nreceivers = s.nreceivers := by unfold copause; (try dsimp only); (repeat' split) <;> simp
@[simp] theorem copause_nsenders (s : S) (i : Nat) (dl : Int) (b : Blk) : (copause s i dl b).nsenders = s.nsenders := by unfold copause; (try dsimp only); (repeat' split) <;> simp
@[simp] theorem copause_nwaitgroupers (s : S) (i : Nat) (dl : Int) (b : Blk) : (copause s i dl b).nwaitgroupers = s.nwaitgroupers := by unfold copause; (try dsimp only); (repeat' split) <;> simp
@[simp] theorem copause_ncondwaiters (s : S) (i : Nat) (dl : Int) (b : Blk) : (copause s i dl b).ncondwaiters = s.ncondwaiters := by unfold copause; (try dsimp only); (repeat' split) <;> simp
@[simp] theorem copause_nsuspended (s : S) (i : Nat) (dl : Int) (b : Blk) : (copause s i dl b).nsuspended = s.nsuspended := by unfold copause; (try dsimp only); (repeat' split) <;> simp
@[simp] theorem copause_nevwaiters (s : S) (i : Nat) (dl : Int) (b : Blk) : (copause s i dl b).nevwaiters = s.nevwaiters := by unfold copause; (try dsimp only); (repeat' split) <;> simp
@[simp] theorem copause_nsigwaiters (s : S) (i : Nat) (dl : Int) (b : Blk) : (copause s i dl b).nsigwaiters = s.nsigwaiters := by unfold copause; (try dsimp only); (repeat' split) <;> simp
@[simp] theorem copause_nresumers (s : S) (i : Nat) (dl : Int) (b : Blk) : (copause s i dl b).nresumers = s.nresumers := by unfold copause; (try dsimp only); (repeat' split) <;> simp
@[simp] theorem copause_niowaiters (s : S) (i : Nat) (dl : Int) (b : Blk) : (copause s i dl b).niowaiters = s.niowaiters := by unfold copause; (try dsimp only); (repeat' split) <;> simp
@[simp] theorem copause_pool (s : S) (i : Nat) (dl : Int) (b : Blk) : (copause s i dl b).pool = s.pool := by unfold copause; (try dsimp only); (repeat' split) <;> simp
@[simp] theorem copause_sigqueue (s : S) (i : Nat) (dl : Int) (b : Blk) : (copause s i dl b).sigqueue = s.sigqueue := by unfold copause; (try dsimp only); (repeat' split) <;> simp
@[simp] theorem copause_sigwatchers (s : S) (i : Nat) (dl : Int) (b : Blk) : (copause s i dl b).sigwatchers = s.sigwatchers := by unfold copause; (try dsimp only); (repeat' split) <;> simp
@[simp] theorem copause_jobs (s : S) (i : Nat) (dl : Int) (b : Blk) : (copause s i dl b).jobs = s.jobs := by unfold copause; (try dsimp only); (repeat' split) <;> simp
@[simp] theorem copause_clock (s : S) (i : Nat) (dl : Int) (b : Blk) : (copause s i dl b).clock = s.clock := by unfold copause; (try dsimp only); (repeat' split) <;> simp
@[simp] theorem copause_main (s : S) (i : Nat) (dl : Int) (b : Blk) : (copause s i dl b).main = s.main := by unfold copause; (try dsimp only); (repeat' split) <;> simp
@[simp] theorem copause_envAsync (s : S) (i : Nat) (dl : Int) (b : Blk) : (copause s i dl b).envAsync = s.envAsync := by unfold copause; (try dsimp only); (repeat' split) <;> simp
@[simp] theorem copause_envEnabled (s : S) (i : Nat) (dl : Int) (b : Blk) : (copause s i dl b).envEnabled = s.envEnabled := by unfold copause; (try dsimp only); (repeat' split) <;> simp
@[simp] theorem copause_dead (s : S) (i : Nat) (dl : Int) (b : Blk) : (copause s i dl b).dead = s.dead := by unfold copause; (try dsimp only); (repeat' split) <;> simp
@[simp] theorem copause_fault (s : S) (i : Nat) (dl : Int) (b : Blk) : (copause s i dl b).fault = s.fault := by unfold copause; (try dsimp only); (repeat' split) <;> simp
@[simp] theorem copause_log (s : S) (i : Nat) (dl : Int) (b : Blk) : (copause s i dl b).log = s.log := by unfold copause; (try dsimp only); (repeat' split) <;> simp
@[simp] theorem unpause_sco (s : S) (i : Nat) : (unpause s i).sco = s.sco := by unfold unpause; (try dsimp only); (repeat' split) <;> simp
@[simp] theorem unpause_lists (s : S) (i : Nat) : (unpause s i).lists = s.lists := by unfold unpause; (try dsimp only); (repeat' split) <;> simp
@[simp] theorem unpause_chan (s : S) (i : Nat) : (unpause s i).chan = s.chan := by unfold unpause; (try dsimp only); (repeat' split) <;> simp
@[simp] theorem unpause_nchan (s : S) (i : Nat) : (unpause s i).nchan = s.nchan := by unfold unpause; (try dsimp only); (repeat' split) <;> simp
@[simp] theorem unpause_mu (s : S) (i : Nat) : (unpause s i).mu = s.mu := by unfold unpause; (try dsimp only); (repeat' split) <;> simp
@[simp] theorem unpause_wg (s : S) (i : Nat) : (unpause s i).wg = s.wg := by unfold unpause; (try dsimp only); (repeat' split) <;> simp
@[simp] theorem unpause_all (s : S) (i : Nat) : (unpause s i).all = s.all := by unfold unpause; (try dsimp only); (repeat' split) <;> simp
@[simp] theorem unpause_allCount (s : S) (i : Nat) : (unpause s i).allCount = s.allCount := by unfold unpause; (try dsimp only); (repeat' split) <;> simp
@[simp] theorem unpause_evw (s : S) (i : Nat) : (unpause s i).evw = s.evw := by unfold unpause; (try dsimp only); (repeat' split) <;> simp
@[simp] theorem unpause_armed (s : S) (i : Nat) : (unpause s i).armed = s.armed := by unfold unpause; (try dsimp only); (repeat' split) <;> simp
@[simp] theorem unpause_nsleepers (s : S) (i : Nat) : (unpause s i).nsleepers = s.nsleepers := by unfold unpause; (try dsimp only); (repeat' split) <;> simp
@[simp] theorem unpause_nlocked (s : S) (i : Nat) : (unpause s i).nlocked = s.nlocked := by unfold unpause; (try dsimp only); (repeat' split) <;> simp
@[simp] theorem unpause_nreceivers (s : S) (i : Nat) : (unpause s i).nreceivers = s.nreceivers := by unfold unpause; (try dsimp only); (repeat' split) <;> simp
@[simp] theorem unpause_nsenders (s : S) (i : Nat) : (unpause s i).nsenders = s.nsenders := by unfold unpause; (try dsimp only); (repeat' split) <;> simp
@[simp] theorem unpause_nwaitgroupers (s : S) (i : Nat) : (unpause s i).nwaitgroupers = s.nwaitgroupers := by unfold unpause; (try dsimp only); (repeat' split) <;> simp
@[simp] theorem unpause_ncondwaiters (s : S) (i : Nat) : (unpause s i).ncondwaiters = s.ncondwaiters := by unfold unpause; (try dsimp only); (repeat' split) <;> simp
@[simp] theorem unpause_nsuspended (s : S) (i : Nat) : (unpause s i).nsuspended = s.nsuspended := by unfold unpause; (try dsimp only); (repeat' split) <;> simp
@[simp] theorem unpause_nevwaiters (s : S) (i : Nat) : (unpause s i).nevwaiters = s.nevwaiters := by unfold unpause; (try dsimp only); (repeat' split) <;> simp
@[simp] theorem unpause_nsigwaiters (s : S) (i : Nat) : (unpause s i).nsigwaiters = s.nsigwaiters := by unfold unpause; (try dsimp only); (repeat' split) <;> simp
@[simp] theorem unpause_nresumers (s : S) (i : Nat) : (unpause s i).nresumers = s.nresumers := by unfold unpause; (try dsimp only); (repeat' split) <;> simp
@[simp] theorem unpause_niowaiters (s : S) (i : Nat) : (unpause s i).niowaiters = s.niowaiters := by unfold unpause; (try dsimp only); (repeat' split) <;> simp
@[simp] theorem unpause_pool (s : S) (i : Nat) : (unpause s i).pool = s.pool := by unfold unpause; (try dsimp only); (repeat' split) <;> simp
@[simp] theorem unpause_sigqueue (s : S) (i : Nat) : (unpause s i).sigqueue = s.sigqueue := by unfold unpause; (try dsimp only); (repeat' split) <;> simp
@[simp] theorem unpause_sigwatchers (s : S) (i : Nat) : (unpause s i).sigwatchers = s.sigwatchers := by unfold unpause; (try dsimp only); (repeat' split) <;> simp
@[simp] theorem unpause_jobs (s : S) (i : Nat) : (unpause s i).jobs = s.jobs := by unfold unpause; (try dsimp only); (repeat' split) <;> simp
@[simp] theorem unpause_clock (s : S) (i : Nat) : (unpause s i).clock = s.clock := by unfold unpause; (try dsimp only); (repeat' split) <;> simp
@[simp] theorem unpause_main (s : S) (i : Nat) : (unpause s i).main = s.main := by unfold unpause; (try dsimp only); (repeat' split) <;> simp
@[simp] theorem unpause_envAsync (s : S) (i : Nat) : (unpause s i).envAsync = s.envAsync := by unfold unpause; (try dsimp only); (repeat' split) <;> simp
@[simp] theorem unpause_envEnabled (s : S) (i : Nat) : (unpause s i).envEnabled = s.envEnabled := by unfold unpause; (try dsimp only); (repeat' split) <;> simp
@[simp] theorem unpause_dead (s : S) (i : Nat) : (unpause s i).dead = s.dead := by unfold unpause; (try dsimp only); (repeat' split) <;> simp
@[simp] theorem unpause_fault (s : S) (i : Nat) : (unpause s i).fault = s.fault := by unfold unpause; (try dsimp only); (repeat' split) <;> simp
@[simp] theorem unpause_log (s : S) (i : Nat) : (unpause s i).log = s.log := by unfold unpause; (try dsimp only); (repeat' split) <;> simp
@[simp] theorem dlClear_sco (s : S) (i : Nat) : (dlClear s i).sco = s.sco := rfl
@[simp] theorem dlClear_lists (s : S) (i : Nat) : (dlClear s i).lists = s.lists := rfl
@[simp] theorem dlClear_chan (s : S) (i : Nat) : (dlClear s i).chan = s.chan := rfl
@[simp] theorem dlClear_nchan (s : S) (i : Nat) : (dlClear s i).nchan = s.nchan := rfl
@[simp] theorem dlClear_mu (s : S) (i : Nat) : (dlClear s i).mu = s.mu := rfl
@[simp] theorem dlClear_wg (s : S) (i : Nat) : (dlClear s i).wg = s.wg := rfl
@[simp] theorem dlClear_all (s : S) (i : Nat) : (dlClear s i).all = s.all := rfl
@[simp] theorem dlClear_allCount (s : S) (i : Nat) : (dlClear s i).allCount = s.allCount := rfl
@[simp] theorem dlClear_dlq (s : S) (i : Nat) : (dlClear s i).dlq = s.dlq := rfl
@[simp] theorem dlClear_evw (s : S) (i : Nat) : (dlClear s i).evw = s.evw := rfl
@[simp] theorem dlClear_armed (s : S) (i : Nat) : (dlClear s i).armed = s.armed := rfl
@[simp] theorem dlClear_nsleepers (s : S) (i : Nat) : (dlClear s i).nsleepers = s.nsleepers := rfl
@[simp] theorem dlClear_nlocked (s : S) (i : Nat) : (dlClear s i).nlocked = s.nlocked := rfl
@[simp] theorem dlClear_nreceivers (s : S) (i : Nat) : (dlClear s i).nreceivers = s.nreceivers := rfl
@[simp] theorem dlClear_nsenders (s : S) (i : Nat) : (dlClear s i).nsenders = s.nsenders := rfl
@[simp] theorem dlClear_nwaitgroupers (s : S) (i : Nat) : (dlClear s i).nwaitgroupers = s.nwaitgroupers := rfl
@[simp] theorem dlClear_ncondwaiters (s : S) (i : Nat) : (dlClear s i).ncondwaiters = s.ncondwaiters := rfl
@[simp] theorem dlClear_nsuspended (s : S) (i : Nat) : (dlClear s i).nsuspended = s.nsuspended := rfl
@[simp] theorem dlClear_nevwaiters (s : S) (i : Nat) : (dlClear s i).nevwaiters = s.nevwaiters := rfl
@[simp] theorem dlClear_nsigwaiters (s : S) (i : Nat) : (dlClear s i).nsigwaiters = s.nsigwaiters := rfl
@[simp] theorem dlClear_nresumers (s : S) (i : Nat) : (dlClear s i).nresumers = s.nresumers := rfl
@[simp] theorem dlClear_niowaiters (s : S) (i : Nat) : (dlClear s i).niowaiters = s.niowaiters := rfl
@[simp] theorem dlClear_pool (s : S) (i : Nat) : (dlClear s i).pool = s.pool := rfl
@[simp] theorem dlClear_sigqueue (s : S) (i : Nat) : (dlClear s i).sigqueue = s.sigqueue := rfl
@[simp] theorem dlClear_sigwatchers (s : S) (i : Nat) : (dlClear s i).sigwatchers = s.sigwatchers := rfl
@[simp] theorem dlClear_jobs (s : S) (i : Nat) : (dlClear s i).jobs = s.jobs := rfl
@[simp] theorem dlClear_clock (s : S) (i : Nat) : (dlClear s i).clock = s.clock := rfl
@[simp] theorem dlClear_main (s : S) (i : Nat) : (dlClear s i).main = s.main := rfl
@[simp] theorem dlClear_envAsync (s : S) (i : Nat) : (dlClear s i).envAsync = s.envAsync := rfl
@[simp] theorem dlClear_envEnabled (s : S) (i : Nat) : (dlClear s i).envEnabled = s.envEnabled := rfl
@[simp] theorem dlClear_dead (s : S) (i : Nat) : (dlClear s i).dead = s.dead := rfl
@[simp] theorem dlClear_fault (s : S) (i : Nat) : (dlClear s i).fault = s.fault := rfl
@[simp] theorem dlClear_log (s : S) (i : Nat) : (dlClear s i).log = s.log := rfl
@[simp] theorem retv_sco (s : S) (i : Nat) (v : Int) : (retv s i v).sco = s.sco := rfl
@[simp] theorem retv_lists (s : S) (i : Nat) (v : Int) : (retv s i v).lists = s.lists := rfl
@[simp] theorem retv_chan (s : S) (i : Nat) (v : Int) : (retv s i v).chan = s.chan := rfl
@[simp] theorem retv_nchan (s : S) (i : Nat) (v : Int) : (retv s i v).nchan = s.nchan := rfl
@[simp] theorem retv_mu (s : S) (i : Nat) (v : Int) : (retv s i v).mu = s.mu := rfl
@[simp] theorem retv_wg (s : S) (i : Nat) (v : Int) : (retv s i v).wg = s.wg := rfl
@[simp] theorem retv_all (s : S) (i : Nat) (v : Int) : (retv s i v).all = s.all := rfl
@[simp] theorem retv_allCount (s : S) (i : Nat) (v : Int) : (retv s i v).allCount = s.allCount := rfl
@[simp] theorem retv_dlq (s : S) (i : Nat) (v : Int) : (retv s i v).dlq = s.dlq := rfl
@[simp] theorem retv_evw (s : S) (i : Nat) (v : Int) : (retv s i v).evw = s.evw := rfl
@[simp] theorem retv_armed (s : S) (i : Nat) (v : Int) : (retv s i v).armed = s.armed := rfl
@[simp] theorem retv_nsleepers (s : S) (i : Nat) (v : Int) : (retv s i v).nsleepers = s.nsleepers := rfl
@[simp] theorem retv_nlocked (s : S) (i : Nat) (v : Int) : (retv s i v).nlocked = s.nlocked := rfl
@[simp] theorem retv_nreceivers (s : S) (i : Nat) (v : Int) : (retv s i v).nreceivers = s.nreceivers := rfl
@[simp] theorem retv_nsenders (s : S) (i : Nat) (v : Int) : (retv s i v).nsenders = s.nsenders := rfl
@[simp] theorem retv_nwaitgroupers (s : S) (i : Nat) (v : Int) : (retv s i v).nwaitgroupers = s.nwaitgroupers := rfl
@[simp] theorem retv_ncondwaiters (s : S) (i : Nat) (v : Int) : (retv s i v).ncondwaiters = s.ncondwaiters := rfl
@[simp] theorem retv_nsuspended (s : S) (i : Nat) (v : Int) : (retv s i v).nsuspended = s.nsuspended := rfl
@[simp] theorem retv_nevwaiters (s : S) (i : Nat) (v : Int) : (retv s i v).nevwaiters = s.nevwaiters := rfl
@[simp] theorem retv_nsigwaiters (s : S) (i : Nat) (v : Int) : (retv s i v).nsigwaiters = s.nsigwaiters := rfl
@[simp] theorem retv_nresumers (s : S) (i : Nat) (v : Int) : (retv s i v).nresumers = s.nresumers := rfl
@[simp] theorem retv_niowaiters (s : S) (i : Nat) (v : Int) : (retv s i v).niowaiters = s.niowaiters := rfl
@[simp] theorem retv_pool (s : S) (i : Nat) (v : Int) : (retv s i v).pool = s.pool := rfl
@[simp] theorem retv_sigqueue (s : S) (i : Nat) (v : Int) : (retv s i v).sigqueue = s.sigqueue := rfl
@[simp] theorem retv_sigwatchers (s : S) (i : Nat) (v : Int) : (retv s i v).sigwatchers = s.sigwatchers := rfl
@[simp] theorem retv_jobs (s : S) (i : Nat) (v : Int) : (retv s i v).jobs = s.jobs := rfl
@[simp] theorem retv_clock (s : S) (i : Nat) (v : Int) : (retv s i v).clock = s.clock := rfl
@[simp] theorem retv_main (s : S) (i : Nat) (v : Int) : (retv s i v).main = s.main := rfl
@[simp] theorem retv_envAsync (s : S) (i : Nat) (v : Int) : (retv s i v).envAsync = s.envAsync := rfl
@[simp] theorem retv_envEnabled (s : S) (i : Nat) (v : Int) : (retv s i v).envEnabled = s.envEnabled := rfl
@[simp] theorem retv_dead (s : S) (i : Nat) (v : Int) : (retv s i v).dead = s.dead := rfl
@[simp] theorem retv_fault (s : S) (i : Nat) (v : Int) : (retv s i v).fault = s.fault := rfl
@[simp] theorem retv_log (s : S) (i : Nat) (v : Int) : (retv s i v).log = s.log := rfl
@[simp] theorem doStart_lists (s : S) (i : Nat) (g : Option Nat) : (doStart s i g).lists = s.lists := rfl
@[simp] theorem doStart_chan (s : S) (i : Nat) (g : Option Nat) : (doStart s i g).chan = s.chan := rfl
@[simp] theorem doStart_nchan (s : S) (i : Nat) (g : Option Nat) : (doStart s i g).nchan = s.nchan := rfl
@[simp] theorem doStart_mu (s : S) (i : Nat) (g : Option Nat) : (doStart s i g).mu = s.mu := rfl
@[simp] theorem doStart_wg (s : S) (i : Nat) (g : Option Nat) : (doStart s i g).wg = s.wg := rfl
@[simp] theorem doStart_dlq (s : S) (i : Nat) (g : Option Nat) : (doStart s i g).dlq = s.dlq := rfl
@[simp] theorem doStart_evw (s : S) (i : Nat) (g : Option Nat) : (doStart s i g).evw = s.evw := rfl
@[simp] theorem doStart_armed (s : S) (i : Nat) (g : Option Nat) : (doStart s i g).armed = s.armed := rfl
@[simp] theorem doStart_nsleepers (s : S) (i : Nat) (g : Option Nat) : (doStart s i g).nsleepers = s.nsleepers := rfl
@[simp] theorem doStart_nlocked (s : S) (i : Nat) (g : Option Nat) : (doStart s i g).nlocked = s.nlocked := rfl
@[simp] theorem doStart_nreceivers (s : S) (i : Nat) (g : Option Nat) : (doStart s i g).nreceivers = s.nreceivers := rfl
@[simp] theorem doStart_nsenders (s : S) (i : Nat) (g : Option Nat) : (doStart s i g).nsenders = s.nsenders := rfl
@[simp] theorem doStart_nwaitgroupers (s : S) (i : Nat) (g : Option Nat) : (doStart s i g).nwaitgroupers = s.nwaitgroupers := rfl
@[simp] theorem doStart_ncondwaiters (s : S) (i : Nat) (g : Option Nat) : (doStart s i g).ncondwaiters = s.ncondwaiters := rfl
@[simp] theorem doStart_nsuspended (s : S) (i : Nat) (g : Option Nat) : (doStart s i g).nsuspended = s.nsuspended := rfl
@[simp] theorem doStart_nevwaiters (s : S) (i : Nat) (g : Option Nat) : (doStart s i g).nevwaiters = s.nevwaiters := rfl
@[simp] theorem doStart_nsigwaiters (s : S) (i : Nat) (g : Option Nat) : (doStart s i g).nsigwaiters = s.nsigwaiters := rfl
@[simp] theorem doStart_nresumers (s : S) (i : Nat) (g : Option Nat) : (doStart s i g).nresumers = s.nresumers := rfl
@[simp] theorem doStart_niowaiters (s : S) (i : Nat) (g : Option Nat) : (doStart s i g).niowaiters = s.niowaiters := rfl
@[simp] theorem doStart_sigqueue (s : S) (i : Nat) (g : Option Nat) : (doStart s i g).sigqueue = s.sigqueue := rfl
@[simp] theorem doStart_sigwatchers (s : S) (i : Nat) (g : Option Nat) : (doStart s i g).sigwatchers = s.sigwatchers := rfl
@[simp] theorem doStart_jobs (s : S) (i : Nat) (g : Option Nat) : (doStart s i g).jobs = s.jobs := rfl
@[simp] theorem doStart_clock (s : S) (i : Nat) (g : Option Nat) : (doStart s i g).clock = s.clock := rfl
@[simp] theorem doStart_main (s : S) (i : Nat) (g : Option Nat) : (doStart s i g).main = s.main := rfl
@[simp] theorem doStart_envAsync (s : S) (i : Nat) (g : Option Nat) : (doStart s i g).envAsync = s.envAsync := rfl
@[simp] theorem doStart_envEnabled (s : S) (i : Nat) (g : Option Nat) : (doStart s i g).envEnabled = s.envEnabled := rfl
@[simp] theorem doStart_dead (s : S) (i : Nat) (g : Option Nat) : (doStart s i g).dead = s.dead := rfl
@[simp] theorem doStart_fault (s : S) (i : Nat) (g : Option Nat) : (doStart s i g).fault = s.fault := rfl
@[simp] theorem doGenStart_lists (s : S) (i : Nat) : (doGenStart s i).lists = s.lists := rfl
@[simp] theorem doGenStart_mu (s : S) (i : Nat) : (doGenStart s i).mu = s.mu := rfl
@[simp] theorem doGenStart_wg (s : S) (i : Nat) : (doGenStart s i).wg = s.wg := rfl
@[simp] theorem doGenStart_dlq (s : S) (i : Nat) : (doGenStart s i).dlq = s.dlq := rfl
@[simp] theorem doGenStart_evw (s : S) (i : Nat) : (doGenStart s i).evw = s.evw := rfl
@[simp] theorem doGenStart_armed (s : S) (i : Nat) : (doGenStart s i).armed = s.armed := rfl
@[simp] theorem doGenStart_nsleepers (s : S) (i : Nat) : (doGenStart s i).nsleepers = s.nsleepers := rfl
@[simp] theorem doGenStart_nlocked (s : S) (i : Nat) : (doGenStart s i).nlocked = s.nlocked := rfl
@[simp] theorem doGenStart_nreceivers (s : S) (i : Nat) : (doGenStart s i).nreceivers = s.nreceivers := rfl
@[simp] theorem doGenStart_nsenders (s : S) (i : Nat) : (doGenStart s i).nsenders = s.nsenders := rfl
@[simp] theorem doGenStart_nwaitgroupers (s : S) (i : Nat) : (doGenStart s i).nwaitgroupers = s.nwaitgroupers := rfl
@[simp] theorem doGenStart_ncondwaiters (s : S) (i : Nat) : (doGenStart s i).ncondwaiters = s.ncondwaiters := rfl
@[simp] theorem doGenStart_nsuspended (s : S) (i : Nat) : (doGenStart s i).nsuspended = s.nsuspended := rfl
@[simp] theorem doGenStart_nevwaiters (s : S) (i : Nat) : (doGenStart s i).nevwaiters = s.nevwaiters := rfl
@[simp] theorem doGenStart_nsigwaiters (s : S) (i : Nat) : (doGenStart s i).nsigwaiters = s.nsigwaiters := rfl
@[simp] theorem doGenStart_nresumers (s : S) (i : Nat) : (doGenStart s i).nresumers = s.nresumers := rfl
@[simp] theorem doGenStart_niowaiters (s : S) (i : Nat) : (doGenStart s i).niowaiters = s.niowaiters := rfl
@[simp] theorem doGenStart_sigqueue (s : S) (i : Nat) : (doGenStart s i).sigqueue = s.sigqueue := rfl
@[simp] theorem doGenStart_sigwatchers (s : S) (i : Nat) : (doGenStart s i).sigwatchers = s.sigwatchers := rfl
@[simp] theorem doGenStart_jobs (s : S) (i : Nat) : (doGenStart s i).jobs = s.jobs := rfl
@[simp] theorem doGenStart_clock (s : S) (i : Nat) : (doGenStart s i).clock = s.clock := rfl
@[simp] theorem doGenStart_main (s : S) (i : Nat) : (doGenStart s i).main = s.main := rfl
@[simp] theorem doGenStart_envAsync (s : S) (i : Nat) : (doGenStart s i).envAsync = s.envAsync := rfl
@[simp] theorem doGenStart_envEnabled (s : S) (i : Nat) : (doGenStart s i).envEnabled = s.envEnabled := rfl
@[simp] theorem doGenStart_dead (s : S) (i : Nat) : (doGenStart s i).dead = s.dead := rfl
@[simp] theorem doGenStart_fault (s : S) (i : Nat) : (doGenStart s i).fault = s.fault := rfl
@[simp] theorem setChan_sco (s : S) (c : Nat) (ch : Chan) : (setChan s c ch).sco = s.sco := rfl
@[simp] theorem setChan_co (s : S) (c : Nat) (ch : Chan) : (setChan s c ch).co = s.co := rfl
@[simp] theorem setChan_lists (s : S) (c : Nat) (ch : Chan) : (setChan s c ch).lists = s.lists := rfl
@[simp] theorem setChan_nchan (s : S) (c : Nat) (ch : Chan) : (setChan s c ch).nchan = s.nchan := rfl
@[simp] theorem setChan_mu (s : S) (c : Nat) (ch : Chan) : (setChan s c ch).mu = s.mu := rfl
@[simp] theorem setChan_wg (s : S) (c : Nat) (ch : Chan) : (setChan s c ch).wg = s.wg := rfl
@[simp] theorem setChan_all (s : S) (c : Nat) (ch : Chan) : (setChan s c ch).all = s.all := rfl
@[simp] theorem setChan_allCount (s : S) (c : Nat) (ch : Chan) : (setChan s c ch).allCount = s.allCount := rfl
@[simp] theorem setChan_dlq (s : S) (c : Nat) (ch : Chan) : (setChan s c ch).dlq = s.dlq := rfl
@[simp] theorem setChan_evw (s : S) (c : Nat) (ch : Chan) : (setChan s c ch).evw = s.evw := rfl
@[simp] theorem setChan_armed (s : S) (c : Nat) (ch : Chan) : (setChan s c ch).armed = s.armed := rfl
@[simp] theorem setChan_nsleepers (s : S) (c : Nat) (ch : Chan) : (setChan s c ch).nsleepers = s.nsleepers := rfl
@[simp] theorem setChan_nlocked (s : S) (c : Nat) (ch : Chan) : (setChan s c ch).nlocked = s.nlocked := rfl
@[simp] theorem setChan_nreceivers (s : S) (c : Nat) (ch : Chan) : (setChan s c ch).nreceivers = s.nreceivers := rfl
@[simp] theorem setChan_nsenders (s : S) (c : Nat) (ch : Chan) : (setChan s c ch).nsenders = s.nsenders := rfl
@[simp] theorem setChan_nwaitgroupers (s : S) (c : Nat) (ch : Chan) : (setChan s c ch).nwaitgroupers = s.nwaitgroupers := rfl
@[simp] theorem setChan_ncondwaiters (s : S) (c : Nat) (ch : Chan) : (setChan s c ch).ncondwaiters = s.ncondwaiters := rfl
@[simp] theorem setChan_nsuspended (s : S) (c : Nat) (ch : Chan) : (setChan s c ch).nsuspended = s.nsuspended := rfl
@[simp] theorem setChan_nevwaiters (s : S) (c : Nat) (ch : Chan) : (setChan s c ch).nevwaiters = s.nevwaiters := rfl
@[simp] theorem setChan_nsigwaiters (s : S) (c : Nat) (ch : Chan) : (setChan s c ch).nsigwaiters = s.nsigwaiters := rfl
@[simp] theorem setChan_nresumers (s : S) (c : Nat) (ch : Chan) : (setChan s c ch).nresumers = s.nresumers := rfl
@[simp] theorem setChan_niowaiters (s : S) (c : Nat) (ch : Chan) : (setChan s c ch).niowaiters = s.niowaiters := rfl
@[simp] theorem setChan_pool (s : S) (c : Nat) (ch : Chan) : (setChan s c ch).pool = s.pool := rfl
@[simp] theorem setChan_sigqueue (s : S) (c : Nat) (ch : Chan) : (setChan s c ch).sigqueue = s.sigqueue := rfl
@[simp] theorem setChan_sigwatchers (s : S) (c : Nat) (ch : Chan) : (setChan s c ch).sigwatchers = s.sigwatchers := rfl
@[simp] theorem setChan_jobs (s : S) (c : Nat) (ch : Chan) : (setChan s c ch).jobs = s.jobs := rfl
@[simp] theorem setChan_clock (s : S) (c : Nat) (ch : Chan) : (setChan s c ch).clock = s.clock := rfl
@[simp] theorem setChan_main (s : S) (c : Nat) (ch : Chan) : (setChan s c ch).main = s.main := rfl
@[simp] theorem setChan_envAsync (s : S) (c : Nat) (ch : Chan) : (setChan s c ch).envAsync = s.envAsync := rfl
@[simp] theorem setChan_envEnabled (s : S) (c : Nat) (ch : Chan) : (setChan s c ch).envEnabled = s.envEnabled := rfl
@[simp] theorem setChan_dead (s : S) (c : Nat) (ch : Chan) : (setChan s c ch).dead = s.dead := rfl
@[simp] theorem setChan_fault (s : S) (c : Nat) (ch : Chan) : (setChan s c ch).fault = s.fault := rfl
@[simp] theorem setChan_log (s : S) (c : Nat) (ch : Chan) : (setChan s c ch).log = s.log := rfl
@[simp] theorem chanRelease_sco (s : S) (c : Nat) : (chanRelease s c).sco = s.sco := by unfold chanRelease; (try dsimp only); (repeat' split) <;> simp
@[simp] theorem chanRelease_co (s : S) (c : Nat) : (chanRelease s c).co = s.co := by unfold chanRelease; (try dsimp only); (repeat' split) <;> simp
@[simp] theorem chanRelease_lists (s : S) (c : Nat) : (chanRelease s c).lists = s.lists := by unfold chanRelease; (try dsimp only); (repeat' split) <;> simp
@[simp] theorem chanRelease_nchan (s : S) (c : Nat) : (chanRelease s c).nchan = s.nchan := by unfold chanRelease; (try dsimp only); (repeat' split) <;> simp
@[simp] theorem chanRelease_mu (s : S) (c : Nat) : (chanRelease s c).mu = s.mu := by unfold chanRelease; (try dsimp only); (repeat' split) <;> simp
@[simp] theorem chanRelease_wg (s : S) (c : Nat) : (chanRelease s c).wg = s.wg := by unfold chanRelease; (try dsimp only); (repeat' split) <;> simp
@[simp] theorem chanRelease_all (s : S) (c : Nat) : (chanRelease s c).all = s.all := by unfold chanRelease; (try dsimp only); (repeat' split) <;> simp
@[simp] theorem chanRelease_allCount (s : S) (c : Nat) : (chanRelease s c).allCount = s.allCount := by unfold chanRelease; (try dsimp only); (repeat' split) <;> simp
@[simp] theorem chanRelease_dlq (s : S) (c : Nat) : (chanRelease s c).dlq = s.dlq := by unfold chanRelease; (try dsimp only); (repeat' split) <;> simp
@[simp] theorem chanRelease_evw (s : S) (c : Nat) : (chanRelease s c).evw = s.evw := by unfold chanRelease; (try dsimp only); (repeat' split) <;> simp
@[simp] theorem chanRelease_armed (s : S) (c : Nat) : (chanRelease s c).armed = s.armed := by unfold chanRelease; (try dsimp only); (repeat' split) <;> simp
@[simp] theorem chanRelease_nsleepers (s : S) (c : Nat) : (chanRelease s c).nsleepers = s.nsleepers := by unfold chanRelease; (try dsimp only); (repeat' split) <;> simp
@[simp] theorem chanRelease_nlocked (s : S) (c : Nat) : (chanRelease s c).nlocked = s.nlocked := by unfold chanRelease; (try dsimp only); (repeat' split) <;> simp
@[simp] theorem chanRelease_nreceivers (s : S) (c : Nat) : (chanRelease s c).nreceivers = s.nreceivers := by unfold chanRelease; (try dsimp only); (repeat' split) <;> simp
@[simp] theorem chanRelease_nsenders (s : S) (c : Nat) : (chanRelease s c).nsenders = s.nsenders := by unfold chanRelease; (try dsimp only); (repeat' split) <;> simp
@[simp] theorem chanRelease_nwaitgroupers (s : S) (c : Nat) : (chanRelease s c).nwaitgroupers = s.nwaitgroupers := by unfold chanRelease; (try dsimp only); (repeat' split) <;> simp
@[simp] theorem chanRelease_ncondwaiters (s : S) (c : Nat) : (chanRelease s c).ncondwaiters = s.ncondwaiters := by unfold chanRelease; (try dsimp only); (repeat' split) <;> simp
@[simp] theorem chanRelease_nsuspended (s : S) (c : Nat) : (chanRelease s c).nsuspended = s.nsuspended := by unfold chanRelease; (try dsimp only); (repeat' split) <;> simp
@[simp] theorem chanRelease_nevwaiters (s : S) (c : Nat) : (chanRelease s c).nevwaiters = s.nevwaiters := by unfold chanRelease; (try dsimp only); (repeat' split) <;> simp
@[simp] theorem chanRelease_nsigwaiters (s : S) (c : Nat) : (chanRelease s c).nsigwaiters = s.nsigwaiters := by unfold chanRelease; (try dsimp only); (repeat' split) <;> simp
@[simp] theorem chanRelease_nresumers (s : S) (c : Nat) : (chanRelease s c).nresumers = s.nresumers := by unfold chanRelease; (try dsimp only); (repeat' split) <;> simp
@[simp] theorem chanRelease_niowaiters (s : S) (c : Nat) : (chanRelease s c).niowaiters = s.niowaiters := by unfold chanRelease; (try dsimp only); (repeat' split) <;> simp
@[simp] theorem chanRelease_pool (s : S) (c : Nat) : (chanRelease s c).pool = s.pool := by unfold chanRelease; (try dsimp only); (repeat' split) <;> simp
@[simp] theorem chanRelease_sigqueue (s : S) (c : Nat) : (chanRelease s c).sigqueue = s.sigqueue := by unfold chanRelease; (try dsimp only); (repeat' split) <;> simp
@[simp] theorem chanRelease_sigwatchers (s : S) (c : Nat) : (chanRelease s c).sigwatchers = s.sigwatchers := by unfold chanRelease; (try dsimp only); (repeat' split) <;> simp
@[simp] theorem chanRelease_jobs (s : S) (c : Nat) : (chanRelease s c).jobs = s.jobs := by unfold chanRelease; (try dsimp only); (repeat' split) <;> simp
@[simp] theorem chanRelease_clock (s : S) (c : Nat) : (chanRelease s c).clock = s.clock := by unfold chanRelease; (try dsimp only); (repeat' split) <;> simp
@[simp] theorem chanRelease_main (s : S) (c : Nat) : (chanRelease s c).main = s.main := by unfold chanRelease; (try dsimp only); (repeat' split) <;> simp
@[simp] theorem chanRelease_envAsync (s : S) (c : Nat) : (chanRelease s c).envAsync = s.envAsync := by unfold chanRelease; (try dsimp only); (repeat' split) <;> simp
@[simp] theorem chanRelease_envEnabled (s : S) (c : Nat) : (chanRelease s c).envEnabled = s.envEnabled := by unfold chanRelease; (try dsimp only); (repeat' split) <;> simp
@[simp] theorem chanRelease_dead (s : S) (c : Nat) : (chanRelease s c).dead = s.dead := by unfold chanRelease; (try dsimp only); (repeat' split) <;> simp
@[simp] theorem chanRelease_log (s : S) (c : Nat) : (chanRelease s c).log = s.log := by unfold chanRelease; (try dsimp only); (repeat' split) <;> simp
@[simp] theorem sendLoop_sco (s : S) (c : Nat) (m : Msg) (q : List Node) : (sendLoop s c m q).1.sco = s.sco := by
  induction q generalizing s with
  | nil => simp [sendLoop]
  | cons n q ih => cases n <;> simp only [sendLoop] <;> (try split) <;> simp [ih]
@[simp] theorem sendLoop_nchan (s : S) (c : Nat) (m : Msg) (q : List Node) : (sendLoop s c m q).1.nchan = s.nchan := by
  induction q generalizing s with
  | nil => simp [sendLoop]
  | cons n q ih => cases n <;> simp only [sendLoop] <;> (try split) <;> simp [ih]
@[simp] theorem sendLoop_mu (s : S) (c : Nat) (m : Msg) (q : List Node) : (sendLoop s c m q).1.mu = s.mu := by
  induction q generalizing s with
  | nil => simp [sendLoop]
  | cons n q ih => cases n <;> simp only [sendLoop] <;> (try split) <;> simp [ih]
@[simp] theorem sendLoop_wg (s : S) (c : Nat) (m : Msg) (q : List Node) : (sendLoop s c m q).1.wg = s.wg := by
  induction q generalizing s with
  | nil => simp [sendLoop]
  | cons n q ih => cases n <;> simp only [sendLoop] <;> (try split) <;> simp [ih]
@[simp] theorem sendLoop_all (s : S) (c : Nat) (m : Msg) (q : List Node) : (sendLoop s c m q).1.all = s.all := by
  induction q generalizing s with
  | nil => simp [sendLoop]
  | cons n q ih => cases n <;> simp only [sendLoop] <;> (try split) <;> simp [ih]
@[simp] theorem sendLoop_allCount (s : S) (c : Nat) (m : Msg) (q : List Node) : (sendLoop s c m q).1.allCount = s.allCount := by
  induction q generalizing s with
  | nil => simp [sendLoop]
  | cons n q ih => cases n <;> simp only [sendLoop] <;> (try split) <;> simp [ih]
@[simp] theorem sendLoop_dlq (s : S) (c : Nat) (m : Msg) (q : List Node) : (sendLoop s c m q).1.dlq = s.dlq := by
  induction q generalizing s with
  | nil => simp [sendLoop]
  | cons n q ih => cases n <;> simp only [sendLoop] <;> (try split) <;> simp [ih]
@[simp] theorem sendLoop_evw (s : S) (c : Nat) (m : Msg) (q : List Node) : (sendLoop s c m q).1.evw = s.evw := by
  induction q generalizing s with
  | nil => simp [sendLoop]
  | cons n q ih => cases n <;> simp only [sendLoop] <;> (try split) <;> simp [ih]
@[simp] theorem sendLoop_armed (s : S) (c : Nat) (m : Msg) (q : List Node) : (sendLoop s c m q).1.armed = s.armed := by
  induction q generalizing s with
  | nil => simp [sendLoop]
  | cons n q ih => cases n <;> simp only [sendLoop] <;> (try split) <;> simp [ih]
@[simp] theorem sendLoop_nsleepers (s : S) (c : Nat) (m : Msg) (q : List Node) : (sendLoop s c m q).1.nsleepers = s.nsleepers := by
  induction q generalizing s with
  | nil => simp [sendLoop]
  | cons n q ih => cases n <;> simp only [sendLoop] <;> (try split) <;> simp [ih]
@[simp] theorem sendLoop_nlocked (s : S) (c : Nat) (m : Msg) (q : List Node) : (sendLoop s c m q).1.nlocked = s.nlocked := by
  induction q generalizing s with
  | nil => simp [sendLoop]
  | cons n q ih => cases n <;> simp only [sendLoop] <;> (try split) <;> simp [ih]
@[simp] theorem sendLoop_nreceivers (s : S) (c : Nat) (m : Msg) (q : List Node) : (sendLoop s c m q).1.nreceivers = s.nreceivers := by
  induction q generalizing s with
  | nil => simp [sendLoop]
  | cons n q ih => cases n <;> simp only [sendLoop] <;> (try split) <;> simp [ih]
@[simp] theorem sendLoop_nsenders (s : S) (c : Nat) (m : Msg) (q : List Node) : (sendLoop s c m q).1.nsenders = s.nsenders := by
  induction q generalizing s with
  | nil => simp [sendLoop]
  | cons n q ih => cases n <;> simp only [sendLoop] <;> (try split) <;> simp [ih]
@[simp] theorem sendLoop_nwaitgroupers (s : S) (c : Nat) (m : Msg) (q : List Node) : (sendLoop s c m q).1.nwaitgroupers = s.nwaitgroupers := by
  induction q generalizing s with
  | nil => simp [sendLoop]
  | cons n q ih => cases n <;> simp only [sendLoop] <;> (try split) <;> simp [ih]
@[simp] theorem sendLoop_ncondwaiters (s : S) (c : Nat) (m : Msg) (q : List Node) : (sendLoop s c m q).1.ncondwaiters = s.ncondwaiters := by
  induction q generalizing s with
  | nil => simp [sendLoop]
  | cons n q ih => cases n <;> simp only [sendLoop] <;> (try split) <;> simp [ih]
@[simp] theorem sendLoop_nsuspended (s : S) (c : Nat) (m : Msg) (q : List Node) : (sendLoop s c m q).1.nsuspended = s.nsuspended := by
  induction q generalizing s with
  | nil => simp [sendLoop]
  | cons n q ih => cases n <;> simp only [sendLoop] <;> (try split) <;> simp [ih]
@[simp] theorem sendLoop_nevwaiters (s : S) (c : Nat) (m : Msg) (q : List Node) : (sendLoop s c m q).1.nevwaiters = s.nevwaiters := by
  induction q generalizing s with
  | nil => simp [sendLoop]
  | cons n q ih => cases n <;> simp only [sendLoop] <;> (try split) <;> simp [ih]
@[simp] theorem sendLoop_nsigwaiters (s : S) (c : Nat) (m : Msg) (q : List Node) : (sendLoop s c m q).1.nsigwaiters = s.nsigwaiters := by
  induction q generalizing s with
  | nil => simp [sendLoop]
  | cons n q ih => cases n <;> simp only [sendLoop] <;> (try split) <;> simp [ih]
@[simp] theorem sendLoop_nresumers (s : S) (c : Nat) (m : Msg) (q : List Node) : (sendLoop s c m q).1.nresumers = s.nresumers := by
  induction q generalizing s with
  | nil => simp [sendLoop]
  | cons n q ih => cases n <;> simp only [sendLoop] <;> (try split) <;> simp [ih]
@[simp] theorem sendLoop_niowaiters (s : S) (c : Nat) (m : Msg) (q : List Node) : (sendLoop s c m q).1.niowaiters = s.niowaiters := by
  induction q generalizing s with
  | nil => simp [sendLoop]
  | cons n q ih => cases n <;> simp only [sendLoop] <;> (try split) <;> simp [ih]
@[simp] theorem sendLoop_pool (s : S) (c : Nat) (m : Msg) (q : List Node) : (sendLoop s c m q).1.pool = s.pool := by
  induction q generalizing s with
  | nil => simp [sendLoop]
  | cons n q ih => cases n <;> simp only [sendLoop] <;> (try split) <;> simp [ih]
@[simp] theorem sendLoop_sigqueue (s : S) (c : Nat) (m : Msg) (q : List Node) : (sendLoop s c m q).1.sigqueue = s.sigqueue := by
  induction q generalizing s with
  | nil => simp [sendLoop]
  | cons n q ih => cases n <;> simp only [sendLoop] <;> (try split) <;> simp [ih]
@[simp] theorem sendLoop_sigwatchers (s : S) (c : Nat) (m : Msg) (q : List Node) : (sendLoop s c m q).1.sigwatchers = s.sigwatchers := by
  induction q generalizing s with
  | nil => simp [sendLoop]
  | cons n q ih => cases n <;> simp only [sendLoop] <;> (try split) <;> simp [ih]
@[simp] theorem sendLoop_jobs (s : S) (c : Nat) (m : Msg) (q : List Node) : (sendLoop s c m q).1.jobs = s.jobs := by
  induction q generalizing s with
  | nil => simp [sendLoop]
  | cons n q ih => cases n <;> simp only [sendLoop] <;> (try split) <;> simp [ih]
@[simp] theorem sendLoop_clock (s : S) (c : Nat) (m : Msg) (q : List Node) : (sendLoop s c m q).1.clock = s.clock := by
  induction q generalizing s with
  | nil => simp [sendLoop]
  | cons n q ih => cases n <;> simp only [sendLoop] <;> (try split) <;> simp [ih]
@[simp] theorem sendLoop_main (s : S) (c : Nat) (m : Msg) (q : List Node) : (sendLoop s c m q).1.main = s.main := by
  induction q generalizing s with
  | nil => simp [sendLoop]
  | cons n q ih => cases n <;> simp only [sendLoop] <;> (try split) <;> simp [ih]
@[simp] theorem sendLoop_envAsync (s : S) (c : Nat) (m : Msg) (q : List Node) : (sendLoop s c m q).1.envAsync = s.envAsync := by
  induction q generalizing s with
  | nil => simp [sendLoop]
  | cons n q ih => cases n <;> simp only [sendLoop] <;> (try split) <;> simp [ih]
@[simp] theorem sendLoop_envEnabled (s : S) (c : Nat) (m : Msg) (q : List Node) : (sendLoop s c m q).1.envEnabled = s.envEnabled := by
  induction q generalizing s with
  | nil => simp [sendLoop]
  | cons n q ih => cases n <;> simp only [sendLoop] <;> (try split) <;> simp [ih]
@[simp] theorem sendLoop_dead (s : S) (c : Nat) (m : Msg) (q : List Node) : (sendLoop s c m q).1.dead = s.dead := by
  induction q generalizing s with
  | nil => simp [sendLoop]
  | cons n q ih => cases n <;> simp only [sendLoop] <;> (try split) <;> simp [ih]
@[simp] theorem sendLoop_fault (s : S) (c : Nat) (m : Msg) (q : List Node) : (sendLoop s c m q).1.fault = s.fault := by
  induction q generalizing s with
  | nil => simp [sendLoop]
  | cons n q ih => cases n <;> simp only [sendLoop] <;> (try split) <;> simp [ih]
@[simp] theorem bcastLoop_sco (s : S) (c : Nat) (m : Msg) (q : List Node) : (bcastLoop s c m q).1.sco = s.sco := by
  induction q generalizing s with
  | nil => simp [bcastLoop]
  | cons n q ih => cases n <;> simp only [bcastLoop] <;> (try split) <;> simp [ih]
@[simp] theorem bcastLoop_nchan (s : S) (c : Nat) (m : Msg) (q : List Node) : (bcastLoop s c m q).1.nchan = s.nchan := by
  induction q generalizing s with
  | nil => simp [bcastLoop]
  | cons n q ih => cases n <;> simp only [bcastLoop] <;> (try split) <;> simp [ih]
@[simp] theorem bcastLoop_mu (s : S) (c : Nat) (m : Msg) (q : List Node) : (bcastLoop s c m q).1.mu = s.mu := by
  induction q generalizing s with
  | nil => simp [bcastLoop]
  | cons n q ih => cases n <;> simp only [bcastLoop] <;> (try split) <;> simp [ih]
@[simp] theorem bcastLoop_wg (s : S) (c : Nat) (m : Msg) (q : List Node) : (bcastLoop s c m q).1.wg = s.wg := by
  induction q generalizing s with
  | nil => simp [bcastLoop]
  | cons n q ih => cases n <;> simp only [bcastLoop] <;> (try split) <;> simp [ih]
@[simp] theorem bcastLoop_all (s : S) (c : Nat) (m : Msg) (q : List Node) : (bcastLoop s c m q).1.all = s.all := by
  induction q generalizing s with
  | nil => simp [bcastLoop]
  | cons n q ih => cases n <;> simp only [bcastLoop] <;> (try split) <;> simp [ih]
@[simp] theorem bcastLoop_allCount (s : S) (c : Nat) (m : Msg) (q : List Node) : (bcastLoop s c m q).1.allCount = s.allCount := by
  induction q generalizing s with
  | nil => simp [bcastLoop]
  | cons n q ih => cases n <;> simp only [bcastLoop] <;> (try split) <;> simp [ih]
@[simp] theorem bcastLoop_dlq (s : S) (c : Nat) (m : Msg) (q : List Node) : (bcastLoop s c m q).1.dlq = s.dlq := by
  induction q generalizing s with
  | nil => simp [bcastLoop]
  | cons n q ih => cases n <;> simp only [bcastLoop] <;> (try split) <;> simp [ih]
@[simp] theorem bcastLoop_evw (s : S) (c : Nat) (m : Msg) (q : List Node) : (bcastLoop s c m q).1.evw = s.evw := by
  induction q generalizing s with
  | nil => simp [bcastLoop]
  | cons n q ih => cases n <;> simp only [bcastLoop] <;> (try split) <;> simp [ih]
@[simp] theorem bcastLoop_armed (s : S) (c : Nat) (m : Msg) (q : List Node) : (bcastLoop s c m q).1.armed = s.armed := by
  induction q generalizing s with
  | nil => simp [bcastLoop]
  | cons n q ih => cases n <;> simp only [bcastLoop] <;> (try split) <;> simp [ih]
@[simp] theorem bcastLoop_nsleepers (s : S) (c : Nat) (m : Msg) (q : List Node) : (bcastLoop s c m q).1.nsleepers = s.nsleepers := by
  induction q generalizing s with
  | nil => simp [bcastLoop]
  | cons n q ih => cases n <;> simp only [bcastLoop] <;> (try split) <;> simp [ih]
@[simp] theorem bcastLoop_nlocked (s : S) (c : Nat) (m : Msg) (q : List Node) : (bcastLoop s c m q).1.nlocked = s.nlocked := by
  induction q generalizing s with
  | nil => simp [bcastLoop]
  | cons n q ih => cases n <;> simp only [bcastLoop] <;> (try split) <;> simp [ih]
@[simp] theorem bcastLoop_nreceivers (s : S) (c : Nat) (m : Msg) (q : List Node) : (bcastLoop s c m q).1.nreceivers = s.nreceivers := by
  induction q generalizing s with
  | nil => simp [bcastLoop]
  | cons n q ih => cases n <;> simp only [bcastLoop] <;> (try split) <;> simp [ih]
@[simp] theorem bcastLoop_nsenders (s : S) (c : Nat) (m : Msg) (q : List Node) : (bcastLoop s c m q).1.nsenders = s.nsenders := by
  induction q generalizing s with
  | nil => simp [bcastLoop]
  | cons n q ih => cases n <;> simp only [bcastLoop] <;> (try split) <;> simp [ih]
@[simp] theorem bcastLoop_nwaitgroupers (s : S) (c : Nat) (m : Msg) (q : List Node) : (bcastLoop s c m q).1.nwaitgroupers = s.nwaitgroupers := by
  induction q generalizing s with
  | nil => simp [bcastLoop]
  | cons n q ih => cases n <;> simp only [bcastLoop] <;> (try split) <;> simp [ih]
@[simp] theorem bcastLoop_ncondwaiters (s : S) (c : Nat) (m : Msg) (q : List Node) : (bcastLoop s c m q).1.ncondwaiters = s.ncondwaiters := by
  induction q generalizing s with
  | nil => simp [bcastLoop]
  | cons n q ih => cases n <;> simp only [bcastLoop] <;> (try split) <;> simp [ih]
@[simp] theorem bcastLoop_nsuspended (s : S) (c : Nat) (m : Msg) (q : List Node) : (bcastLoop s c m q).1.nsuspended = s.nsuspended := by
  induction q generalizing s with
  | nil => simp [bcastLoop]
  | cons n q ih => cases n <;> simp only [bcastLoop] <;> (try split) <;> simp [ih]
@[simp] theorem bcastLoop_nevwaiters (s : S) (c : Nat) (m : Msg) (q : List Node) : (bcastLoop s c m q).1.nevwaiters = s.nevwaiters := by
  induction q generalizing s with
  | nil => simp [bcastLoop]
  | cons n q ih => cases n <;> simp only [bcastLoop] <;> (try split) <;> simp [ih]
@[simp] theorem bcastLoop_nsigwaiters (s : S) (c : Nat) (m : Msg) (q : List Node) : (bcastLoop s c m q).1.nsigwaiters = s.nsigwaiters := by
  induction q generalizing s with
  | nil => simp [bcastLoop]
  | cons n q ih => cases n <;> simp only [bcastLoop] <;> (try split) <;> simp [ih]
@[simp] theorem bcastLoop_niowaiters (s : S) (c : Nat) (m : Msg) (q : List Node) : (bcastLoop s c m q).1.niowaiters = s.niowaiters := by
  induction q generalizing s with
  | nil => simp [bcastLoop]
  | cons n q ih => cases n <;> simp only [bcastLoop] <;> (try split) <;> simp [ih]
@[simp] theorem bcastLoop_pool (s : S) (c : Nat) (m : Msg) (q : List Node) : (bcastLoop s c m q).1.pool = s.pool := by
  induction q generalizing s with
  | nil => simp [bcastLoop]
  | cons n q ih => cases n <;> simp only [bcastLoop] <;> (try split) <;> simp [ih]
@[simp] theorem bcastLoop_sigqueue (s : S) (c : Nat) (m : Msg) (q : List Node) : (bcastLoop s c m q).1.sigqueue = s.sigqueue := by
  induction q generalizing s with
  | nil => simp [bcastLoop]
  | cons n q ih => cases n <;> simp only [bcastLoop] <;> (try split) <;> simp [ih]
@[simp] theorem bcastLoop_sigwatchers (s : S) (c : Nat) (m : Msg) (q : List Node) : (bcastLoop s c m q).1.sigwatchers = s.sigwatchers := by
  induction q generalizing s with
  | nil => simp [bcastLoop]
  | cons n q ih => cases n <;> simp only [bcastLoop] <;> (try split) <;> simp [ih]
@[simp] theorem bcastLoop_jobs (s : S) (c : Nat) (m : Msg) (q : List Node) : (bcastLoop s c m q).1.jobs = s.jobs := by
  induction q generalizing s with
  | nil => simp [bcastLoop]
  | cons n q ih => cases n <;> simp only [bcastLoop] <;> (try split) <;> simp [ih]
@[simp] theorem bcastLoop_clock (s : S) (c : Nat) (m : Msg) (q : List Node) : (bcastLoop s c m q).1.clock = s.clock := by
  induction q generalizing s with
  | nil => simp [bcastLoop]
  | cons n q ih => cases n <;> simp only [bcastLoop] <;> (try split) <;> simp [ih]
@[simp] theorem bcastLoop_main (s : S) (c : Nat) (m : Msg) (q : List Node) : (bcastLoop s c m q).1.main = s.main := by
  induction q generalizing s with
  | nil => simp [bcastLoop]
  | cons n q ih => cases n <;> simp only [bcastLoop] <;> (try split) <;> simp [ih]
@[simp] theorem bcastLoop_envAsync (s : S) (c : Nat) (m : Msg) (q : List Node) : (bcastLoop s c m q).1.envAsync = s.envAsync := by
  induction q generalizing s with
  | nil => simp [bcastLoop]
  | cons n q ih => cases n <;> simp only [bcastLoop] <;> (try split) <;> simp [ih]
@[simp] theorem bcastLoop_envEnabled (s : S) (c : Nat) (m : Msg) (q : List Node) : (bcastLoop s c m q).1.envEnabled = s.envEnabled := by
  induction q generalizing s with
  | nil => simp [bcastLoop]
  | cons n q ih => cases n <;> simp only [bcastLoop] <;> (try split) <;> simp [ih]
@[simp] theorem bcastLoop_dead (s : S) (c : Nat) (m : Msg) (q : List Node) : (bcastLoop s c m q).1.dead = s.dead := by
  induction q generalizing s with
  | nil => simp [bcastLoop]
  | cons n q ih => cases n <;> simp only [bcastLoop] <;> (try split) <;> simp [ih]
@[simp] theorem bcastLoop_fault (s : S) (c : Nat) (m : Msg) (q : List Node) : (bcastLoop s c m q).1.fault = s.fault := by
  induction q generalizing s with
  | nil => simp [bcastLoop]
  | cons n q ih => cases n <;> simp only [bcastLoop] <;> (try split) <;> simp [ih]
@[simp] theorem closeLoop_sco (s : S) (c : Nat) (q : List Node) : (closeLoop s c q).sco = s.sco := by
  induction q generalizing s with
  | nil => simp [closeLoop]
  | cons n q ih => cases n <;> simp only [closeLoop] <;> (try split) <;> simp [ih]
@[simp] theorem closeLoop_nchan (s : S) (c : Nat) (q : List Node) : (closeLoop s c q).nchan = s.nchan := by
  induction q generalizing s with
  | nil => simp [closeLoop]
  | cons n q ih => cases n <;> simp only [closeLoop] <;> (try split) <;> simp [ih]
@[simp] theorem closeLoop_mu (s : S) (c : Nat) (q : List Node) : (closeLoop s c q).mu = s.mu := by
  induction q generalizing s with
  | nil => simp [closeLoop]
  | cons n q ih => cases n <;> simp only [closeLoop] <;> (try split) <;> simp [ih]
@[simp] theorem closeLoop_wg (s : S) (c : Nat) (q : List Node) : (closeLoop s c q).wg = s.wg := by
  induction q generalizing s with
  | nil => simp [closeLoop]
  | cons n q ih => cases n <;> simp only [closeLoop] <;> (try split) <;> simp [ih]
@[simp] theorem closeLoop_all (s : S) (c : Nat) (q : List Node) : (closeLoop s c q).all = s.all := by
  induction q generalizing s with
  | nil => simp [closeLoop]
  | cons n q ih => cases n <;> simp only [closeLoop] <;> (try split) <;> simp [ih]
@[simp] theorem closeLoop_allCount (s : S) (c : Nat) (q : List Node) : (closeLoop s c q).allCount = s.allCount := by
  induction q generalizing s with
  | nil => simp [closeLoop]
  | cons n q ih => cases n <;> simp only [closeLoop] <;> (try split) <;> simp [ih]
@[simp] theorem closeLoop_dlq (s : S) (c : Nat) (q : List Node) : (closeLoop s c q).dlq = s.dlq := by
  induction q generalizing s with
  | nil => simp [closeLoop]
  | cons n q ih => cases n <;> simp only [closeLoop] <;> (try split) <;> simp [ih]
@[simp] theorem closeLoop_evw (s : S) (c : Nat) (q : List Node) : (closeLoop s c q).evw = s.evw := by
  induction q generalizing s with
  | nil => simp [closeLoop]
  | cons n q ih => cases n <;> simp only [closeLoop] <;> (try split) <;> simp [ih]
@[simp] theorem closeLoop_armed (s : S) (c : Nat) (q : List Node) : (closeLoop s c q).armed = s.armed := by
  induction q generalizing s with
  | nil => simp [closeLoop]
  | cons n q ih => cases n <;> simp only [closeLoop] <;> (try split) <;> simp [ih]
@[simp] theorem closeLoop_nsleepers (s : S) (c : Nat) (q : List Node) : (closeLoop s c q).nsleepers = s.nsleepers := by
  induction q generalizing s with
  | nil => simp [closeLoop]
  | cons n q ih => cases n <;> simp only [closeLoop] <;> (try split) <;> simp [ih]
@[simp] theorem closeLoop_nlocked (s : S) (c : Nat) (q : List Node) : (closeLoop s c q).nlocked = s.nlocked := by
  induction q generalizing s with
  | nil => simp [closeLoop]
  | cons n q ih => cases n <;> simp only [closeLoop] <;> (try split) <;> simp [ih]
@[simp] theorem closeLoop_nreceivers (s : S) (c : Nat) (q : List Node) : (closeLoop s c q).nreceivers = s.nreceivers := by
  induction q generalizing s with
  | nil => simp [closeLoop]
  | cons n q ih => cases n <;> simp only [closeLoop] <;> (try split) <;> simp [ih]
@[simp] theorem closeLoop_nsenders (s : S) (c : Nat) (q : List Node) : (closeLoop s c q).nsenders = s.nsenders := by
  induction q generalizing s with
  | nil => simp [closeLoop]
  | cons n q ih => cases n <;> simp only [closeLoop] <;> (try split) <;> simp [ih]
@[simp] theorem closeLoop_nwaitgroupers (s : S) (c : Nat) (q : List Node) : (closeLoop s c q).nwaitgroupers = s.nwaitgroupers := by
  induction q generalizing s with
  | nil => simp [closeLoop]
  | cons n q ih => cases n <;> simp only [closeLoop] <;> (try split) <;> simp [ih]
@[simp] theorem closeLoop_ncondwaiters (s : S) (c : Nat) (q : List Node) : (closeLoop s c q).ncondwaiters = s.ncondwaiters := by
  induction q generalizing s with
  | nil => simp [closeLoop]
  | cons n q ih => cases n <;> simp only [closeLoop] <;> (try split) <;> simp [ih]
@[simp] theorem closeLoop_nsuspended (s : S) (c : Nat) (q : List Node) : (closeLoop s c q).nsuspended = s.nsuspended := by
  induction q generalizing s with
  | nil => simp [closeLoop]
  | cons n q ih => cases n <;> simp only [closeLoop] <;> (try split) <;> simp [ih]
@[simp] theorem closeLoop_nevwaiters (s : S) (c : Nat) (q : List Node) : (closeLoop s c q).nevwaiters = s.nevwaiters := by
  induction q generalizing s with
  | nil => simp [closeLoop]
  | cons n q ih => cases n <;> simp only [closeLoop] <;> (try split) <;> simp [ih]
@[simp] theorem closeLoop_nsigwaiters (s : S) (c : Nat) (q : List Node) : (closeLoop s c q).nsigwaiters = s.nsigwaiters := by
  induction q generalizing s with
  | nil => simp [closeLoop]
  | cons n q ih => cases n <;> simp only [closeLoop] <;> (try split) <;> simp [ih]
@[simp] theorem closeLoop_niowaiters (s : S) (c : Nat) (q : List Node) : (closeLoop s c q).niowaiters = s.niowaiters := by
  induction q generalizing s with
  | nil => simp [closeLoop]
  | cons n q ih => cases n <;> simp only [closeLoop] <;> (try split) <;> simp [ih]
@[simp] theorem closeLoop_pool (s : S) (c : Nat) (q : List Node) : (closeLoop s c q).pool = s.pool := by
  induction q generalizing s with
  | nil => simp [closeLoop]
  | cons n q ih => cases n <;> simp only [closeLoop] <;> (try split) <;> simp [ih]
@[simp] theorem closeLoop_sigqueue (s : S) (c : Nat) (q : List Node) : (closeLoop s c q).sigqueue = s.sigqueue := by
  induction q generalizing s with
  | nil => simp [closeLoop]
  | cons n q ih => cases n <;> simp only [closeLoop] <;> (try split) <;> simp [ih]
@[simp] theorem closeLoop_sigwatchers (s : S) (c : Nat) (q : List Node) : (closeLoop s c q).sigwatchers = s.sigwatchers := by
  induction q generalizing s with
  | nil => simp [closeLoop]
  | cons n q ih => cases n <;> simp only [closeLoop] <;> (try split) <;> simp [ih]
@[simp] theorem closeLoop_jobs (s : S) (c : Nat) (q : List Node) : (closeLoop s c q).jobs = s.jobs := by
  induction q generalizing s with
  | nil => simp [closeLoop]
  | cons n q ih => cases n <;> simp only [closeLoop] <;> (try split) <;> simp [ih]
@[simp] theorem closeLoop_clock (s : S) (c : Nat) (q : List Node) : (closeLoop s c q).clock = s.clock := by
  induction q generalizing s with
  | nil => simp [closeLoop]
  | cons n q ih => cases n <;> simp only [closeLoop] <;> (try split) <;> simp [ih]
@[simp] theorem closeLoop_main (s : S) (c : Nat) (q : List Node) : (closeLoop s c q).main = s.main := by
  induction q generalizing s with
  | nil => simp [closeLoop]
  | cons n q ih => cases n <;> simp only [closeLoop] <;> (try split) <;> simp [ih]
@[simp] theorem closeLoop_envAsync (s : S) (c : Nat) (q : List Node) : (closeLoop s c q).envAsync = s.envAsync := by
  induction q generalizing s with
  | nil => simp [closeLoop]
  | cons n q ih => cases n <;> simp only [closeLoop] <;> (try split) <;> simp [ih]
@[simp] theorem closeLoop_envEnabled (s : S) (c : Nat) (q : List Node) : (closeLoop s c q).envEnabled = s.envEnabled := by
  induction q generalizing s with
  | nil => simp [closeLoop]
  | cons n q ih => cases n <;> simp only [closeLoop] <;> (try split) <;> simp [ih]
@[simp] theorem closeLoop_dead (s : S) (c : Nat) (q : List Node) : (closeLoop s c q).dead = s.dead := by
  induction q generalizing s with
  | nil => simp [closeLoop]
  | cons n q ih => cases n <;> simp only [closeLoop] <;> (try split) <;> simp [ih]
@[simp] theorem closeLoop_fault (s : S) (c : Nat) (q : List Node) : (closeLoop s c q).fault = s.fault := by
  induction q generalizing s with
  | nil => simp [closeLoop]
  | cons n q ih => cases n <;> simp only [closeLoop] <;> (try split) <;> simp [ih]
@[simp] theorem closeLoop_log (s : S) (c : Nat) (q : List Node) : (closeLoop s c q).log = s.log := by
  induction q generalizing s with
  | nil => simp [closeLoop]
  | cons n q ih => cases n <;> simp only [closeLoop] <;> (try split) <;> simp [ih]
@[simp] theorem sendTry_sco (s : S) (c : Nat) (m : Msg) (ch : Chan) : (sendTry s c m ch).1.sco = s.sco := by unfold sendTry; split <;> simp
@[simp] theorem sendTry_nchan (s : S) (c : Nat) (m : Msg) (ch : Chan) : (sendTry s c m ch).1.nchan = s.nchan := by unfold sendTry; split <;> simp
@[simp] theorem sendTry_mu (s : S) (c : Nat) (m : Msg) (ch : Chan) : (sendTry s c m ch).1.mu = s.mu := by unfold sendTry; split <;> simp
@[simp] theorem sendTry_wg (s : S) (c : Nat) (m : Msg) (ch : Chan) : (sendTry s c m ch).1.wg = s.wg := by unfold sendTry; split <;> simp
@[simp] theorem sendTry_all (s : S) (c : Nat) (m : Msg) (ch : Chan) : (sendTry s c m ch).1.all = s.all := by unfold sendTry; split <;> simp
@[simp] theorem sendTry_allCount (s : S) (c : Nat) (m : Msg) (ch : Chan) : (sendTry s c m ch).1.allCount = s.allCount := by unfold sendTry; split <;> simp
@[simp] theorem sendTry_dlq (s : S) (c : Nat) (m : Msg) (ch : Chan) : (sendTry s c m ch).1.dlq = s.dlq := by unfold sendTry; split <;> simp
@[simp] theorem sendTry_evw (s : S) (c : Nat) (m : Msg) (ch : Chan) : (sendTry s c m ch).1.evw = s.evw := by unfold sendTry; split <;> simp
@[simp] theorem sendTry_armed (s : S) (c : Nat) (m : Msg) (ch : Chan) : (sendTry s c m ch).1.armed = s.armed := by unfold sendTry; split <;> simp
@[simp] theorem sendTry_nsleepers (s : S) (c : Nat) (m : Msg) (ch : Chan) : (sendTry s c m ch).1.nsleepers = s.nsleepers := by unfold sendTry; split <;> simp
@[simp] theorem sendTry_nlocked (s : S) (c : Nat) (m : Msg) (ch : Chan) : (sendTry s c m ch).1.nlocked = s.nlocked := by unfold sendTry; split <;> simp
@[simp] theorem sendTry_nreceivers (s : S) (c : Nat) (m : Msg) (ch : Chan) : (sendTry s c m ch).1.nreceivers = s.nreceivers := by unfold sendTry; split <;> simp
@[simp] theorem sendTry_nsenders (s : S) (c : Nat) (m : Msg) (ch : Chan) : (sendTry s c m ch).1.nsenders = s.nsenders := by unfold sendTry; split <;> simp
@[simp] theorem sendTry_nwaitgroupers (s : S) (c : Nat) (m : Msg) (ch : Chan) : (sendTry s c m ch).1.nwaitgroupers = s.nwaitgroupers := by unfold sendTry; split <;> simp
@[simp] theorem sendTry_ncondwaiters (s : S) (c : Nat) (m : Msg) (ch : Chan) : (sendTry s c m ch).1.ncondwaiters = s.ncondwaiters := by unfold sendTry; split <;> simp
@[simp] theorem sendTry_nsuspended (s : S) (c : Nat) (m : Msg) (ch : Chan) : (sendTry s c m ch).1.nsuspended = s.nsuspended := by unfold sendTry; split <;> simp
@[simp] theorem sendTry_nevwaiters (s : S) (c : Nat) (m : Msg) (ch : Chan) : (sendTry s c m ch).1.nevwaiters = s.nevwaiters := by unfold sendTry; split <;> simp
@[simp] theorem sendTry_nsigwaiters (s : S) (c : Nat) (m : Msg) (ch : Chan) : (sendTry s c m ch).1.nsigwaiters = s.nsigwaiters := by unfold sendTry; split <;> simp
@[simp] theorem sendTry_nresumers (s : S) (c : Nat) (m : Msg) (ch : Chan) : (sendTry s c m ch).1.nresumers = s.nresumers := by unfold sendTry; split <;> simp
@[simp] theorem sendTry_niowaiters (s : S) (c : Nat) (m : Msg) (ch : Chan) : (sendTry s c m ch).1.niowaiters = s.niowaiters := by unfold sendTry; split <;> simp
@[simp] theorem sendTry_pool (s : S) (c : Nat) (m : Msg) (ch : Chan) : (sendTry s c m ch).1.pool = s.pool := by unfold sendTry; split <;> simp
@[simp] theorem sendTry_sigqueue (s : S) (c : Nat) (m : Msg) (ch : Chan) : (sendTry s c m ch).1.sigqueue = s.sigqueue := by unfold sendTry; split <;> simp
@[simp] theorem sendTry_sigwatchers (s : S) (c : Nat) (m : Msg) (ch : Chan) : (sendTry s c m ch).1.sigwatchers = s.sigwatchers := by unfold sendTry; split <;> simp
@[simp] theorem sendTry_jobs (s : S) (c : Nat) (m : Msg) (ch : Chan) : (sendTry s c m ch).1.jobs = s.jobs := by unfold sendTry; split <;> simp
@[simp] theorem sendTry_clock (s : S) (c : Nat) (m : Msg) (ch : Chan) : (sendTry s c m ch).1.clock = s.clock := by unfold sendTry; split <;> simp
@[simp] theorem sendTry_main (s : S) (c : Nat) (m : Msg) (ch : Chan) : (sendTry s c m ch).1.main = s.main := by unfold sendTry; split <;> simp
@[simp] theorem sendTry_envAsync (s : S) (c : Nat) (m : Msg) (ch : Chan) : (sendTry s c m ch).1.envAsync = s.envAsync := by unfold sendTry; split <;> simp
@[simp] theorem sendTry_envEnabled (s : S) (c : Nat) (m : Msg) (ch : Chan) : (sendTry s c m ch).1.envEnabled = s.envEnabled := by unfold sendTry; split <;> simp
@[simp] theorem sendTry_dead (s : S) (c : Nat) (m : Msg) (ch : Chan) : (sendTry s c m ch).1.dead = s.dead := by unfold sendTry; split <;> simp
@[simp] theorem sendTry_fault (s : S) (c : Nat) (m : Msg) (ch : Chan) : (sendTry s c m ch).1.fault = s.fault := by unfold sendTry; split <;> simp
@[simp] theorem bcastTry_sco (s : S) (c : Nat) (m : Msg) (ch : Chan) : (bcastTry s c m ch).1.sco = s.sco := by unfold bcastTry; split <;> simp
@[simp] theorem bcastTry_nchan (s : S) (c : Nat) (m : Msg) (ch : Chan) : (bcastTry s c m ch).1.nchan = s.nchan := by unfold bcastTry; split <;> simp
@[simp] theorem bcastTry_mu (s : S) (c : Nat) (m : Msg) (ch : Chan) : (bcastTry s c m ch).1.mu = s.mu := by unfold bcastTry; split <;> simp
@[simp] theorem bcastTry_wg (s : S) (c : Nat) (m : Msg) (ch : Chan) : (bcastTry s c m ch).1.wg = s.wg := by unfold bcastTry; split <;> simp
@[simp] theorem bcastTry_all (s : S) (c : Nat) (m : Msg) (ch : Chan) : (bcastTry s c m ch).1.all = s.all := by unfold bcastTry; split <;> simp
@[simp] theorem bcastTry_allCount (s : S) (c : Nat) (m : Msg) (ch : Chan) : (bcastTry s c m ch).1.allCount = s.allCount := by unfold bcastTry; split <;> simp
@[simp] theorem bcastTry_dlq (s : S) (c : Nat) (m : Msg) (ch : Chan) : (bcastTry s c m ch).1.dlq = s.dlq := by unfold bcastTry; split <;> simp
@[simp] theorem bcastTry_evw (s : S) (c : Nat) (m : Msg) (ch : Chan) : (bcastTry s c m ch).1.evw = s.evw := by unfold bcastTry; split <;> simp
@[simp] theorem bcastTry_armed (s : S) (c : Nat) (m : Msg) (ch : Chan) : (bcastTry s c m ch).1.armed = s.armed := by unfold bcastTry; split <;> simp
@[simp] theorem bcastTry_nsleepers (s : S) (c : Nat) (m : Msg) (ch : Chan) : (bcastTry s c m ch).1.nsleepers = s.nsleepers := by unfold bcastTry; split <;> simp
@[simp] theorem bcastTry_nlocked (s : S) (c : Nat) (m : Msg) (ch : Chan) : (bcastTry s c m ch).1.nlocked = s.nlocked := by unfold bcastTry; split <;> simp
@[simp] theorem bcastTry_nreceivers (s : S) (c : Nat) (m : Msg) (ch : Chan) : (bcastTry s c m ch).1.nreceivers = s.nreceivers := by unfold bcastTry; split <;> simp
@[simp] theorem bcastTry_nsenders (s : S) (c : Nat) (m : Msg) (ch : Chan) : (bcastTry s c m ch).1.nsenders = s.nsenders := by unfold bcastTry; split <;> simp
@[simp] theorem bcastTry_nwaitgroupers (s : S) (c : Nat) (m : Msg) (ch : Chan) : (bcastTry s c m ch).1.nwaitgroupers = s.nwaitgroupers := by unfold bcastTry; split <;> simp
@[simp] theorem bcastTry_ncondwaiters (s : S) (c : Nat) (m : Msg) (ch : Chan) : (bcastTry s c m ch).1.ncondwaiters = s.ncondwaiters := by unfold bcastTry; split <;> simp
@[simp] theorem bcastTry_nsuspended (s : S) (c : Nat) (m : Msg) (ch : Chan) : (bcastTry s c m ch).1.nsuspended = s.nsuspended := by unfold bcastTry; split <;> simp
@[simp] theorem bcastTry_nevwaiters (s : S) (c : Nat) (m : Msg) (ch : Chan) : (bcastTry s c m ch).1.nevwaiters = s.nevwaiters := by unfold bcastTry; split <;> simp
@[simp] theorem bcastTry_nsigwaiters (s : S) (c : Nat) (m : Msg) (ch : Chan) : (bcastTry s c m ch).1.nsigwaiters = s.nsigwaiters := by unfold bcastTry; split <;> simp
@[simp] theorem bcastTry_niowaiters (s : S) (c : Nat) (m : Msg) (ch : Chan) : (bcastTry s c m ch).1.niowaiters = s.niowaiters := by unfold bcastTry; split <;> simp
@[simp] theorem bcastTry_pool (s : S) (c : Nat) (m : Msg) (ch : Chan) : (bcastTry s c m ch).1.pool = s.pool := by unfold bcastTry; split <;> simp
@[simp] theorem bcastTry_sigqueue (s : S) (c : Nat) (m : Msg) (ch : Chan) : (bcastTry s c m ch).1.sigqueue = s.sigqueue := by unfold bcastTry; split <;> simp
@[simp] theorem bcastTry_sigwatchers (s : S) (c : Nat) (m : Msg) (ch : Chan) : (bcastTry s c m ch).1.sigwatchers = s.sigwatchers := by unfold bcastTry; split <;> simp
@[simp] theorem bcastTry_jobs (s : S) (c : Nat) (m : Msg) (ch : Chan) : (bcastTry s c m ch).1.jobs = s.jobs := by unfold bcastTry; split <;> simp
@[simp] theorem bcastTry_clock (s : S) (c : Nat) (m : Msg) (ch : Chan) : (bcastTry s c m ch).1.clock = s.clock := by unfold bcastTry; split <;> simp
@[simp] theorem bcastTry_main (s : S) (c : Nat) (m : Msg) (ch : Chan) : (bcastTry s c m ch).1.main = s.main := by unfold bcastTry; split <;> simp
@[simp] theorem bcastTry_envAsync (s : S) (c : Nat) (m : Msg) (ch : Chan) : (bcastTry s c m ch).1.envAsync = s.envAsync := by unfold bcastTry; split <;> simp
@[simp] theorem bcastTry_envEnabled (s : S) (c : Nat) (m : Msg) (ch : Chan) : (bcastTry s c m ch).1.envEnabled = s.envEnabled := by unfold bcastTry; split <;> simp
@[simp] theorem bcastTry_dead (s : S) (c : Nat) (m : Msg) (ch : Chan) : (bcastTry s c m ch).1.dead = s.dead := by unfold bcastTry; split <;> simp
@[simp] theorem bcastTry_fault (s : S) (c : Nat) (m : Msg) (ch : Chan) : (bcastTry s c m ch).1.fault = s.fault := by unfold bcastTry; split <;> simp
@[simp] theorem sendRest_nchan (s : S) (i c : Nat) (m : Msg) (dl : Int) (ch : Chan) : (sendRest s i c m dl ch).nchan = s.nchan := by unfold sendRest; (try dsimp only); (repeat' split) <;> simp
@[simp] theorem sendRest_mu (s : S) (i c : Nat) (m : Msg) (dl : Int) (ch : Chan) : (sendRest s i c m dl ch).mu = s.mu := by unfold sendRest; (try dsimp only); (repeat' split) <;> simp
@[simp] theorem sendRest_wg (s : S) (i c : Nat) (m : Msg) (dl : Int) (ch : Chan) : (sendRest s i c m dl ch).wg = s.wg := by unfold sendRest; (try dsimp only); (repeat' split) <;> simp
@[simp] theorem sendRest_all (s : S) (i c : Nat) (m : Msg) (dl : Int) (ch : Chan) : (sendRest s i c m dl ch).all = s.all := by unfold sendRest; (try dsimp only); (repeat' split) <;> simp
@[simp] theorem sendRest_allCount (s : S) (i c : Nat) (m : Msg) (dl : Int) (ch : Chan) : (sendRest s i c m dl ch).allCount = s.allCount := by unfold sendRest; (try dsimp only); (repeat' split) <;> simp
@[simp] theorem sendRest_evw (s : S) (i c : Nat) (m : Msg) (dl : Int) (ch : Chan) : (sendRest s i c m dl ch).evw = s.evw := by unfold sendRest; (try dsimp only); (repeat' split) <;> simp
@[simp] theorem sendRest_armed (s : S) (i c : Nat) (m : Msg) (dl : Int) (ch : Chan) : (sendRest s i c m dl ch).armed = s.armed := by unfold sendRest; (try dsimp only); (repeat' split) <;> simp
@[simp] theorem sendRest_nsleepers (s : S) (i c : Nat) (m : Msg) (dl : Int) (ch : Chan) : (sendRest s i c m dl ch).nsleepers = s.nsleepers := by unfold sendRest; (try dsimp only); (repeat' split) <;> simp
@[simp] theorem sendRest_nlocked (s : S) (i c : Nat) (m : Msg) (dl : Int) (ch : Chan) : (sendRest s i c m dl ch).nlocked = s.nlocked := by unfold sendRest; (try dsimp only); (repeat' split) <;> simp
@[simp] theorem sendRest_nreceivers (s : S) (i c : Nat) (m : Msg) (dl : Int) (ch : Chan) : (sendRest s i c m dl ch).nreceivers = s.nreceivers := by unfold sendRest; (try dsimp only); (repeat' split) <;> simp
@[simp] theorem sendRest_nwaitgroupers (s : S) (i c : Nat) (m : Msg) (dl : Int) (ch : Chan) : (sendRest s i c m dl ch).nwaitgroupers = s.nwaitgroupers := by unfold sendRest; (try dsimp only); (repeat' split) <;> simp
@[simp] theorem sendRest_ncondwaiters (s : S) (i c : Nat) (m : Msg) (dl : Int) (ch : Chan) : (sendRest s i c m dl ch).ncondwaiters = s.ncondwaiters := by unfold sendRest; (try dsimp only); (repeat' split) <;> simp
@[simp] theorem sendRest_nsuspended (s : S) (i c : Nat) (m : Msg) (dl : Int) (ch : Chan) : (sendRest s i c m dl ch).nsuspended = s.nsuspended := by unfold sendRest; (try dsimp only); (repeat' split) <;> simp
@[simp] theorem sendRest_nevwaiters (s : S) (i c : Nat) (m : Msg) (dl : Int) (ch : Chan) : (sendRest s i c m dl ch).nevwaiters = s.nevwaiters := by unfold sendRest; (try dsimp only); (repeat' split) <;> simp
@[simp] theorem sendRest_nsigwaiters (s : S) (i c : Nat) (m : Msg) (dl : Int) (ch : Chan) : (sendRest s i c m dl ch).nsigwaiters = s.nsigwaiters := by unfold sendRest; (try dsimp only); (repeat' split) <;> simp
@[simp] theorem sendRest_nresumers (s : S) (i c : Nat) (m : Msg) (dl : Int) (ch : Chan) : (sendRest s i c m dl ch).nresumers = s.nresumers := by unfold sendRest; (try dsimp only); (repeat' split) <;> simp
@[simp] theorem sendRest_niowaiters (s : S) (i c : Nat) (m : Msg) (dl : Int) (ch : Chan) : (sendRest s i c m dl ch).niowaiters = s.niowaiters := by unfold sendRest; (try dsimp only); (repeat' split) <;> simp
@[simp] theorem sendRest_pool (s : S) (i c : Nat) (m : Msg) (dl : Int) (ch : Chan) : (sendRest s i c m dl ch).pool = s.pool := by unfold sendRest; (try dsimp only); (repeat' split) <;> simp
@[simp] theorem sendRest_sigqueue (s : S) (i c : Nat) (m : Msg) (dl : Int) (ch : Chan) : (sendRest s i c m dl ch).sigqueue = s.sigqueue := by unfold sendRest; (try dsimp only); (repeat' split) <;> simp
@[simp] theorem sendRest_sigwatchers (s : S) (i c : Nat) (m : Msg) (dl : Int) (ch : Chan) : (sendRest s i c m dl ch).sigwatchers = s.sigwatchers := by unfold sendRest; (try dsimp only); (repeat' split) <;> simp
@[simp] theorem sendRest_jobs (s : S) (i c : Nat) (m : Msg) (dl : Int) (ch : Chan) : (sendRest s i c m dl ch).jobs = s.jobs := by unfold sendRest; (try dsimp only); (repeat' split) <;> simp
@[simp] theorem sendRest_clock (s : S) (i c : Nat) (m : Msg) (dl : Int) (ch : Chan) : (sendRest s i c m dl ch).clock = s.clock := by unfold sendRest; (try dsimp only); (repeat' split) <;> simp
@[simp] theorem sendRest_main (s : S) (i c : Nat) (m : Msg) (dl : Int) (ch : Chan) : (sendRest s i c m dl ch).main = s.main := by unfold sendRest; (try dsimp only); (repeat' split) <;> simp
@[simp] theorem sendRest_envAsync (s : S) (i c : Nat) (m : Msg) (dl : Int) (ch : Chan) : (sendRest s i c m dl ch).envAsync = s.envAsync := by unfold sendRest; (try dsimp only); (repeat' split) <;> simp
@[simp] theorem sendRest_envEnabled (s : S) (i c : Nat) (m : Msg) (dl : Int) (ch : Chan) : (sendRest s i c m dl ch).envEnabled = s.envEnabled := by unfold sendRest; (try dsimp only); (repeat' split) <;> simp
@[simp] theorem sendRest_dead (s : S) (i c : Nat) (m : Msg) (dl : Int) (ch : Chan) : (sendRest s i c m dl ch).dead = s.dead := by unfold sendRest; (try dsimp only); (repeat' split) <;> simp
@[simp] theorem sendRest_fault (s : S) (i c : Nat) (m : Msg) (dl : Int) (ch : Chan) : (sendRest s i c m dl ch).fault = s.fault := by unfold sendRest; (try dsimp only); (repeat' split) <;> simp
@[simp] theorem sendRest_log (s : S) (i c : Nat) (m : Msg) (dl : Int) (ch : Chan) : (sendRest s i c m dl ch).log = s.log := by unfold sendRest; (try dsimp only); (repeat' split) <;> simp
@[simp] theorem chanSend_nchan (s : S) (i c : Nat) (m : Msg) (dl : Int) : (chanSend s i c m dl).nchan = s.nchan := by unfold chanSend; dsimp only; (repeat' split) <;> simp
@[simp] theorem chanSend_mu (s : S) (i c : Nat) (m : Msg) (dl : Int) : (chanSend s i c m dl).mu = s.mu := by unfold chanSend; dsimp only; (repeat' split) <;> simp
@[simp] theorem chanSend_wg (s : S) (i c : Nat) (m : Msg) (dl : Int) : (chanSend s i c m dl).wg = s.wg := by unfold chanSend; dsimp only; (repeat' split) <;> simp
@[simp] theorem chanSend_all (s : S) (i c : Nat) (m : Msg) (dl : Int) : (chanSend s i c m dl).all = s.all := by unfold chanSend; dsimp only; (repeat' split) <;> simp
@[simp] theorem chanSend_allCount (s : S) (i c : Nat) (m : Msg) (dl : Int) : (chanSend s i c m dl).allCount = s.allCount := by unfold chanSend; dsimp only; (repeat' split) <;> simp
@[simp] theorem chanSend_evw (s : S) (i c : Nat) (m : Msg) (dl : Int) : (chanSend s i c m dl).evw = s.evw := by unfold chanSend; dsimp only; (repeat' split) <;> simp
@[simp] theorem chanSend_armed (s : S) (i c : Nat) (m : Msg) (dl : Int) : (chanSend s i c m dl).armed = s.armed := by unfold chanSend; dsimp only; (repeat' split) <;> simp
@[simp] theorem chanSend_nsleepers (s : S) (i c : Nat) (m : Msg) (dl : Int) : (chanSend s i c m dl).nsleepers = s.nsleepers := by unfold chanSend; dsimp only; (repeat' split) <;> simp
@[simp] theorem chanSend_nlocked (s : S) (i c : Nat) (m : Msg) (dl : Int) : (chanSend s i c m dl).nlocked = s.nlocked := by unfold chanSend; dsimp only; (repeat' split) <;> simp
@[simp] theorem chanSend_nreceivers (s : S) (i c : Nat) (m : Msg) (dl : Int) : (chanSend s i c m dl).nreceivers = s.nreceivers := by unfold chanSend; dsimp only; (repeat' split) <;> simp
@[simp] theorem chanSend_nwaitgroupers (s : S) (i c : Nat) (m : Msg) (dl : Int) : (chanSend s i c m dl).nwaitgroupers = s.nwaitgroupers := by unfold chanSend; dsimp only; (repeat' split) <;> simp
@[simp] theorem chanSend_ncondwaiters (s : S) (i c : Nat) (m : Msg) (dl : Int) : (chanSend s i c m dl).ncondwaiters = s.ncondwaiters := by unfold chanSend; dsimp only; (repeat' split) <;> simp
@[simp] theorem chanSend_nsuspended (s : S) (i c : Nat) (m : Msg) (dl : Int) : (chanSend s i c m dl).nsuspended = s.nsuspended := by unfold chanSend; dsimp only; (repeat' split) <;> simp
@[simp] theorem chanSend_nevwaiters (s : S) (i c : Nat) (m : Msg) (dl : Int) : (chanSend s i c m dl).nevwaiters = s.nevwaiters := by unfold chanSend; dsimp only; (repeat' split) <;> simp
@[simp] theorem chanSend_nsigwaiters (s : S) (i c : Nat) (m : Msg) (dl : Int) : (chanSend s i c m dl).nsigwaiters = s.nsigwaiters := by unfold chanSend; dsimp only; (repeat' split) <;> simp
@[simp] theorem chanSend_nresumers (s : S) (i c : Nat) (m : Msg) (dl : Int) : (chanSend s i c m dl).nresumers = s.nresumers := by unfold chanSend; dsimp only; (repeat' split) <;> simp
@[simp] theorem chanSend_niowaiters (s : S) (i c : Nat) (m : Msg) (dl : Int) : (chanSend s i c m dl).niowaiters = s.niowaiters := by unfold chanSend; dsimp only; (repeat' split) <;> simp
@[simp] theorem chanSend_pool (s : S) (i c : Nat) (m : Msg) (dl : Int) : (chanSend s i c m dl).pool = s.pool := by unfold chanSend; dsimp only; (repeat' split) <;> simp
@[simp] theorem chanSend_sigqueue (s : S) (i c : Nat) (m : Msg) (dl : Int) : (chanSend s i c m dl).sigqueue = s.sigqueue := by unfold chanSend; dsimp only; (repeat' split) <;> simp
@[simp] theorem chanSend_sigwatchers (s : S) (i c : Nat) (m : Msg) (dl : Int) : (chanSend s i c m dl).sigwatchers = s.sigwatchers := by unfold chanSend; dsimp only; (repeat' split) <;> simp
@[simp] theorem chanSend_jobs (s : S) (i c : Nat) (m : Msg) (dl : Int) : (chanSend s i c m dl).jobs = s.jobs := by unfold chanSend; dsimp only; (repeat' split) <;> simp
@[simp] theorem chanSend_clock (s : S) (i c : Nat) (m : Msg) (dl : Int) : (chanSend s i c m dl).clock = s.clock := by unfold chanSend; dsimp only; (repeat' split) <;> simp
@[simp] theorem chanSend_main (s : S) (i c : Nat) (m : Msg) (dl : Int) : (chanSend s i c m dl).main = s.main := by unfold chanSend; dsimp only; (repeat' split) <;> simp
@[simp] theorem chanSend_envAsync (s : S) (i c : Nat) (m : Msg) (dl : Int) : (chanSend s i c m dl).envAsync = s.envAsync := by unfold chanSend; dsimp only; (repeat' split) <;> simp
@[simp] theorem chanSend_envEnabled (s : S) (i c : Nat) (m : Msg) (dl : Int) : (chanSend s i c m dl).envEnabled = s.envEnabled := by unfold chanSend; dsimp only; (repeat' split) <;> simp
@[simp] theorem chanSend_dead (s : S) (i c : Nat) (m : Msg) (dl : Int) : (chanSend s i c m dl).dead = s.dead := by unfold chanSend; dsimp only; (repeat' split) <;> simp
@[simp] theorem chanBcast_nchan (s : S) (i c : Nat) (m : Msg) : (chanBcast s i c m).nchan = s.nchan := by unfold chanBcast; (try dsimp only); (repeat' split) <;> simp
@[simp] theorem chanBcast_mu (s : S) (i c : Nat) (m : Msg) : (chanBcast s i c m).mu = s.mu := by unfold chanBcast; (try dsimp only); (repeat' split) <;> simp
@[simp] theorem chanBcast_wg (s : S) (i c : Nat) (m : Msg) : (chanBcast s i c m).wg = s.wg := by unfold chanBcast; (try dsimp only); (repeat' split) <;> simp
@[simp] theorem chanBcast_all (s : S) (i c : Nat) (m : Msg) : (chanBcast s i c m).all = s.all := by unfold chanBcast; (try dsimp only); (repeat' split) <;> simp
@[simp] theorem chanBcast_allCount (s : S) (i c : Nat) (m : Msg) : (chanBcast s i c m).allCount = s.allCount := by unfold chanBcast; (try dsimp only); (repeat' split) <;> simp
@[simp] theorem chanBcast_dlq (s : S) (i c : Nat) (m : Msg) : (chanBcast s i c m).dlq = s.dlq := by unfold chanBcast; (try dsimp only); (repeat' split) <;> simp
@[simp] theorem chanBcast_evw (s : S) (i c : Nat) (m : Msg) : (chanBcast s i c m).evw = s.evw := by unfold chanBcast; (try dsimp only); (repeat' split) <;> simp
@[simp] theorem chanBcast_armed (s : S) (i c : Nat) (m : Msg) : (chanBcast s i c m).armed = s.armed := by unfold chanBcast; (try dsimp only); (repeat' split) <;> simp
@[simp] theorem chanBcast_nsleepers (s : S) (i c : Nat) (m : Msg) : (chanBcast s i c m).nsleepers = s.nsleepers := by unfold chanBcast; (try dsimp only); (repeat' split) <;> simp
@[simp] theorem chanBcast_nlocked (s : S) (i c : Nat) (m : Msg) : (chanBcast s i c m).nlocked = s.nlocked := by unfold chanBcast; (try dsimp only); (repeat' split) <;> simp
@[simp] theorem chanBcast_nreceivers (s : S) (i c : Nat) (m : Msg) : (chanBcast s i c m).nreceivers = s.nreceivers := by unfold chanBcast; (try dsimp only); (repeat' split) <;> simp
@[simp] theorem chanBcast_nsenders (s : S) (i c : Nat) (m : Msg) : (chanBcast s i c m).nsenders = s.nsenders := by unfold chanBcast; (try dsimp only); (repeat' split) <;> simp
@[simp] theorem chanBcast_nwaitgroupers (s : S) (i c : Nat) (m : Msg) : (chanBcast s i c m).nwaitgroupers = s.nwaitgroupers := by unfold chanBcast; (try dsimp only); (repeat' split) <;> simp
@[simp] theorem chanBcast_ncondwaiters (s : S) (i c : Nat) (m : Msg) : (chanBcast s i c m).ncondwaiters = s.ncondwaiters := by unfold chanBcast; (try dsimp only); (repeat' split) <;> simp
@[simp] theorem chanBcast_nsuspended (s : S) (i c : Nat) (m : Msg) : (chanBcast s i c m).nsuspended = s.nsuspended := by unfold chanBcast; (try dsimp only); (repeat' split) <;> simp
@[simp] theorem chanBcast_nevwaiters (s : S) (i c : Nat) (m : Msg) : (chanBcast s i c m).nevwaiters = s.nevwaiters := by unfold chanBcast; (try dsimp only); (repeat' split) <;> simp
@[simp] theorem chanBcast_nsigwaiters (s : S) (i c : Nat) (m : Msg) : (chanBcast s i c m).nsigwaiters = s.nsigwaiters := by unfold chanBcast; (try dsimp only); (repeat' split) <;> simp
@[simp] theorem chanBcast_niowaiters (s : S) (i c : Nat) (m : Msg) : (chanBcast s i c m).niowaiters = s.niowaiters := by unfold chanBcast; (try dsimp only); (repeat' split) <;> simp
@[simp] theorem chanBcast_pool (s : S) (i c : Nat) (m : Msg) : (chanBcast s i c m).pool = s.pool := by unfold chanBcast; (try dsimp only); (repeat' split) <;> simp
@[simp] theorem chanBcast_sigqueue (s : S) (i c : Nat) (m : Msg) : (chanBcast s i c m).sigqueue = s.sigqueue := by unfold chanBcast; (try dsimp only); (repeat' split) <;> simp
@[simp] theorem chanBcast_sigwatchers (s : S) (i c : Nat) (m : Msg) : (chanBcast s i c m).sigwatchers = s.sigwatchers := by unfold chanBcast; (try dsimp only); (repeat' split) <;> simp
@[simp] theorem chanBcast_jobs (s : S) (i c : Nat) (m : Msg) : (chanBcast s i c m).jobs = s.jobs := by unfold chanBcast; (try dsimp only); (repeat' split) <;> simp
@[simp] theorem chanBcast_clock (s : S) (i c : Nat) (m : Msg) : (chanBcast s i c m).clock = s.clock := by unfold chanBcast; (try dsimp only); (repeat' split) <;> simp
@[simp] theorem chanBcast_main (s : S) (i c : Nat) (m : Msg) : (chanBcast s i c m).main = s.main := by unfold chanBcast; (try dsimp only); (repeat' split) <;> simp
@[simp] theorem chanBcast_envAsync (s : S) (i c : Nat) (m : Msg) : (chanBcast s i c m).envAsync = s.envAsync := by unfold chanBcast; (try dsimp only); (repeat' split) <;> simp
@[simp] theorem chanBcast_envEnabled (s : S) (i c : Nat) (m : Msg) : (chanBcast s i c m).envEnabled = s.envEnabled := by unfold chanBcast; (try dsimp only); (repeat' split) <;> simp
@[simp] theorem chanBcast_dead (s : S) (i c : Nat) (m : Msg) : (chanBcast s i c m).dead = s.dead := by unfold chanBcast; (try dsimp only); (repeat' split) <;> simp
@[simp] theorem resumeOpt_co (s : S) (r : Option Nat) : (resumeOpt s r).co = s.co := by unfold resumeOpt; split <;> rfl
@[simp] theorem resumeOpt_lists (s : S) (r : Option Nat) : (resumeOpt s r).lists = s.lists := by unfold resumeOpt; split <;> rfl
@[simp] theorem resumeOpt_chan (s : S) (r : Option Nat) : (resumeOpt s r).chan = s.chan := by unfold resumeOpt; split <;> rfl
@[simp] theorem resumeOpt_nchan (s : S) (r : Option Nat) : (resumeOpt s r).nchan = s.nchan := by unfold resumeOpt; split <;> rfl
@[simp] theorem resumeOpt_mu (s : S) (r : Option Nat) : (resumeOpt s r).mu = s.mu := by unfold resumeOpt; split <;> rfl
@[simp] theorem resumeOpt_wg (s : S) (r : Option Nat) : (resumeOpt s r).wg = s.wg := by unfold resumeOpt; split <;> rfl
@[simp] theorem resumeOpt_all (s : S) (r : Option Nat) : (resumeOpt s r).all = s.all := by unfold resumeOpt; split <;> rfl
@[simp] theorem resumeOpt_allCount (s : S) (r : Option Nat) : (resumeOpt s r).allCount = s.allCount := by unfold resumeOpt; split <;> rfl
@[simp] theorem resumeOpt_dlq (s : S) (r : Option Nat) : (resumeOpt s r).dlq = s.dlq := by unfold resumeOpt; split <;> rfl
@[simp] theorem resumeOpt_evw (s : S) (r : Option Nat) : (resumeOpt s r).evw = s.evw := by unfold resumeOpt; split <;> rfl
@[simp] theorem resumeOpt_armed (s : S) (r : Option Nat) : (resumeOpt s r).armed = s.armed := by unfold resumeOpt; split <;> rfl
@[simp] theorem resumeOpt_nsleepers (s : S) (r : Option Nat) : (resumeOpt s r).nsleepers = s.nsleepers := by unfold resumeOpt; split <;> rfl
@[simp] theorem resumeOpt_nlocked (s : S) (r : Option Nat) : (resumeOpt s r).nlocked = s.nlocked := by unfold resumeOpt; split <;> rfl
@[simp] theorem resumeOpt_nreceivers (s : S) (r : Option Nat) : (resumeOpt s r).nreceivers = s.nreceivers := by unfold resumeOpt; split <;> rfl
@[simp] theorem resumeOpt_nsenders (s : S) (r : Option Nat) : (resumeOpt s r).nsenders = s.nsenders := by unfold resumeOpt; split <;> rfl
@[simp] theorem resumeOpt_nwaitgroupers (s : S) (r : Option Nat) : (resumeOpt s r).nwaitgroupers = s.nwaitgroupers := by unfold resumeOpt; split <;> rfl
@[simp] theorem resumeOpt_ncondwaiters (s : S) (r : Option Nat) : (resumeOpt s r).ncondwaiters = s.ncondwaiters := by unfold resumeOpt; split <;> rfl
@[simp] theorem resumeOpt_nsuspended (s : S) (r : Option Nat) : (resumeOpt s r).nsuspended = s.nsuspended := by unfold resumeOpt; split <;> rfl
@[simp] theorem resumeOpt_nevwaiters (s : S) (r : Option Nat) : (resumeOpt s r).nevwaiters = s.nevwaiters := by unfold resumeOpt; split <;> rfl
@[simp] theorem resumeOpt_nsigwaiters (s : S) (r : Option Nat) : (resumeOpt s r).nsigwaiters = s.nsigwaiters := by unfold resumeOpt; split <;> rfl
@[simp] theorem resumeOpt_nresumers (s : S) (r : Option Nat) : (resumeOpt s r).nresumers = s.nresumers := by unfold resumeOpt; split <;> rfl
@[simp] theorem resumeOpt_niowaiters (s : S) (r : Option Nat) : (resumeOpt s r).niowaiters = s.niowaiters := by unfold resumeOpt; split <;> rfl
@[simp] theorem resumeOpt_pool (s : S) (r : Option Nat) : (resumeOpt s r).pool = s.pool := by unfold resumeOpt; split <;> rfl
@[simp] theorem resumeOpt_sigqueue (s : S) (r : Option Nat) : (resumeOpt s r).sigqueue = s.sigqueue := by unfold resumeOpt; split <;> rfl
@[simp] theorem resumeOpt_sigwatchers (s : S) (r : Option Nat) : (resumeOpt s r).sigwatchers = s.sigwatchers := by unfold resumeOpt; split <;> rfl
@[simp] theorem resumeOpt_jobs (s : S) (r : Option Nat) : (resumeOpt s r).jobs = s.jobs := by unfold resumeOpt; split <;> rfl
@[simp] theorem resumeOpt_clock (s : S) (r : Option Nat) : (resumeOpt s r).clock = s.clock := by unfold resumeOpt; split <;> rfl
@[simp] theorem resumeOpt_main (s : S) (r : Option Nat) : (resumeOpt s r).main = s.main := by unfold resumeOpt; split <;> rfl
@[simp] theorem resumeOpt_envAsync (s : S) (r : Option Nat) : (resumeOpt s r).envAsync = s.envAsync := by unfold resumeOpt; split <;> rfl
@[simp] theorem resumeOpt_envEnabled (s : S) (r : Option Nat) : (resumeOpt s r).envEnabled = s.envEnabled := by unfold resumeOpt; split <;> rfl
@[simp] theorem resumeOpt_dead (s : S) (r : Option Nat) : (resumeOpt s r).dead = s.dead := by unfold resumeOpt; split <;> rfl
@[simp] theorem resumeOpt_fault (s : S) (r : Option Nat) : (resumeOpt s r).fault = s.fault := by unfold resumeOpt; split <;> rfl
@[simp] theorem resumeOpt_log (s : S) (r : Option Nat) : (resumeOpt s r).log = s.log := by unfold resumeOpt; split <;> rfl
@[simp] theorem closeEnd_sco (s : S) (c : Nat) : (closeEnd s c).sco = s.sco := rfl
@[simp] theorem closeEnd_co (s : S) (c : Nat) : (closeEnd s c).co = s.co := rfl
@[simp] theorem closeEnd_lists (s : S) (c : Nat) : (closeEnd s c).lists = s.lists := rfl
@[simp] theorem closeEnd_nchan (s : S) (c : Nat) : (closeEnd s c).nchan = s.nchan := rfl
@[simp] theorem closeEnd_mu (s : S) (c : Nat) : (closeEnd s c).mu = s.mu := rfl
@[simp] theorem closeEnd_wg (s : S) (c : Nat) : (closeEnd s c).wg = s.wg := rfl
@[simp] theorem closeEnd_all (s : S) (c : Nat) : (closeEnd s c).all = s.all := rfl
@[simp] theorem closeEnd_allCount (s : S) (c : Nat) : (closeEnd s c).allCount = s.allCount := rfl
@[simp] theorem closeEnd_dlq (s : S) (c : Nat) : (closeEnd s c).dlq = s.dlq := rfl
@[simp] theorem closeEnd_evw (s : S) (c : Nat) : (closeEnd s c).evw = s.evw := rfl
@[simp] theorem closeEnd_armed (s : S) (c : Nat) : (closeEnd s c).armed = s.armed := rfl
@[simp] theorem closeEnd_nsleepers (s : S) (c : Nat) : (closeEnd s c).nsleepers = s.nsleepers := rfl
@[simp] theorem closeEnd_nlocked (s : S) (c : Nat) : (closeEnd s c).nlocked = s.nlocked := rfl
@[simp] theorem closeEnd_nreceivers (s : S) (c : Nat) : (closeEnd s c).nreceivers = s.nreceivers := rfl
@[simp] theorem closeEnd_nsenders (s : S) (c : Nat) : (closeEnd s c).nsenders = s.nsenders := rfl
@[simp] theorem closeEnd_nwaitgroupers (s : S) (c : Nat) : (closeEnd s c).nwaitgroupers = s.nwaitgroupers := rfl
@[simp] theorem closeEnd_ncondwaiters (s : S) (c : Nat) : (closeEnd s c).ncondwaiters = s.ncondwaiters := rfl
@[simp] theorem closeEnd_nsuspended (s : S) (c : Nat) : (closeEnd s c).nsuspended = s.nsuspended := rfl
@[simp] theorem closeEnd_nevwaiters (s : S) (c : Nat) : (closeEnd s c).nevwaiters = s.nevwaiters := rfl
@[simp] theorem closeEnd_nsigwaiters (s : S) (c : Nat) : (closeEnd s c).nsigwaiters = s.nsigwaiters := rfl
@[simp] theorem closeEnd_nresumers (s : S) (c : Nat) : (closeEnd s c).nresumers = s.nresumers := rfl
@[simp] theorem closeEnd_niowaiters (s : S) (c : Nat) : (closeEnd s c).niowaiters = s.niowaiters := rfl
@[simp] theorem closeEnd_pool (s : S) (c : Nat) : (closeEnd s c).pool = s.pool := rfl
@[simp] theorem closeEnd_sigqueue (s : S) (c : Nat) : (closeEnd s c).sigqueue = s.sigqueue := rfl
@[simp] theorem closeEnd_sigwatchers (s : S) (c : Nat) : (closeEnd s c).sigwatchers = s.sigwatchers := rfl
@[simp] theorem closeEnd_jobs (s : S) (c : Nat) : (closeEnd s c).jobs = s.jobs := rfl
@[simp] theorem closeEnd_clock (s : S) (c : Nat) : (closeEnd s c).clock = s.clock := rfl
@[simp] theorem closeEnd_main (s : S) (c : Nat) : (closeEnd s c).main = s.main := rfl
@[simp] theorem closeEnd_envAsync (s : S) (c : Nat) : (closeEnd s c).envAsync = s.envAsync := rfl
@[simp] theorem closeEnd_envEnabled (s : S) (c : Nat) : (closeEnd s c).envEnabled = s.envEnabled := rfl
@[simp] theorem closeEnd_dead (s : S) (c : Nat) : (closeEnd s c).dead = s.dead := rfl
@[simp] theorem closeEnd_fault (s : S) (c : Nat) : (closeEnd s c).fault = s.fault := rfl
@[simp] theorem closeEnd_log (s : S) (c : Nat) : (closeEnd s c).log = s.log := rfl
@[simp] theorem chanClose1_nchan (s : S) (i c : Nat) (ch : Chan) (a : Aft) : (chanClose1 s i c ch a).nchan = s.nchan := by unfold chanClose1; (try dsimp only); (repeat' split) <;> simp
@[simp] theorem chanClose1_mu (s : S) (i c : Nat) (ch : Chan) (a : Aft) : (chanClose1 s i c ch a).mu = s.mu := by unfold chanClose1; (try dsimp only); (repeat' split) <;> simp
@[simp] theorem chanClose1_wg (s : S) (i c : Nat) (ch : Chan) (a : Aft) : (chanClose1 s i c ch a).wg = s.wg := by unfold chanClose1; (try dsimp only); (repeat' split) <;> simp
@[simp] theorem chanClose1_all (s : S) (i c : Nat) (ch : Chan) (a : Aft) : (chanClose1 s i c ch a).all = s.all := by unfold chanClose1; (try dsimp only); (repeat' split) <;> simp
@[simp] theorem chanClose1_allCount (s : S) (i c : Nat) (ch : Chan) (a : Aft) : (chanClose1 s i c ch a).allCount = s.allCount := by unfold chanClose1; (try dsimp only); (repeat' split) <;> simp
@[simp] theorem chanClose1_dlq (s : S) (i c : Nat) (ch : Chan) (a : Aft) : (chanClose1 s i c ch a).dlq = s.dlq := by unfold chanClose1; (try dsimp only); (repeat' split) <;> simp
@[simp] theorem chanClose1_evw (s : S) (i c : Nat) (ch : Chan) (a : Aft) : (chanClose1 s i c ch a).evw = s.evw := by unfold chanClose1; (try dsimp only); (repeat' split) <;> simp
@[simp] theorem chanClose1_armed (s : S) (i c : Nat) (ch : Chan) (a : Aft) : (chanClose1 s i c ch a).armed = s.armed := by unfold chanClose1; (try dsimp only); (repeat' split) <;> simp
@[simp] theorem chanClose1_nsleepers (s : S) (i c : Nat) (ch : Chan) (a : Aft) : (chanClose1 s i c ch a).nsleepers = s.nsleepers := by unfold chanClose1; (try dsimp only); (repeat' split) <;> simp
@[simp] theorem chanClose1_nlocked (s : S) (i c : Nat) (ch : Chan) (a : Aft) : (chanClose1 s i c ch a).nlocked = s.nlocked := by unfold chanClose1; (try dsimp only); (repeat' split) <;> simp
@[simp] theorem chanClose1_nreceivers (s : S) (i c : Nat) (ch : Chan) (a : Aft) : (chanClose1 s i c ch a).nreceivers = s.nreceivers := by unfold chanClose1; (try dsimp only); (repeat' split) <;> simp
@[simp] theorem chanClose1_nsenders (s : S) (i c : Nat) (ch : Chan) (a : Aft) : (chanClose1 s i c ch a).nsenders = s.nsenders := by unfold chanClose1; (try dsimp only); (repeat' split) <;> simp
@[simp] theorem chanClose1_nwaitgroupers (s : S) (i c : Nat) (ch : Chan) (a : Aft) : (chanClose1 s i c ch a).nwaitgroupers = s.nwaitgroupers := by unfold chanClose1; (try dsimp only); (repeat' split) <;> simp
@[simp] theorem chanClose1_ncondwaiters (s : S) (i c : Nat) (ch : Chan) (a : Aft) : (chanClose1 s i c ch a).ncondwaiters = s.ncondwaiters := by unfold chanClose1; (try dsimp only); (repeat' split) <;> simp
@[simp] theorem chanClose1_nsuspended (s : S) (i c : Nat) (ch : Chan) (a : Aft) : (chanClose1 s i c ch a).nsuspended = s.nsuspended := by unfold chanClose1; (try dsimp only); (repeat' split) <;> simp
@[simp] theorem chanClose1_nevwaiters (s : S) (i c : Nat) (ch : Chan) (a : Aft) : (chanClose1 s i c ch a).nevwaiters = s.nevwaiters := by unfold chanClose1; (try dsimp only); (repeat' split) <;> simp
@[simp] theorem chanClose1_nsigwaiters (s : S) (i c : Nat) (ch : Chan) (a : Aft) : (chanClose1 s i c ch a).nsigwaiters = s.nsigwaiters := by unfold chanClose1; (try dsimp only); (repeat' split) <;> simp
@[simp] theorem chanClose1_niowaiters (s : S) (i c : Nat) (ch : Chan) (a : Aft) : (chanClose1 s i c ch a).niowaiters = s.niowaiters := by unfold chanClose1; (try dsimp only); (repeat' split) <;> simp
@[simp] theorem chanClose1_pool (s : S) (i c : Nat) (ch : Chan) (a : Aft) : (chanClose1 s i c ch a).pool = s.pool := by unfold chanClose1; (try dsimp only); (repeat' split) <;> simp
@[simp] theorem chanClose1_sigqueue (s : S) (i c : Nat) (ch : Chan) (a : Aft) : (chanClose1 s i c ch a).sigqueue = s.sigqueue := by unfold chanClose1; (try dsimp only); (repeat' split) <;> simp
@[simp] theorem chanClose1_sigwatchers (s : S) (i c : Nat) (ch : Chan) (a : Aft) : (chanClose1 s i c ch a).sigwatchers = s.sigwatchers := by unfold chanClose1; (try dsimp only); (repeat' split) <;> simp
@[simp] theorem chanClose1_jobs (s : S) (i c : Nat) (ch : Chan) (a : Aft) : (chanClose1 s i c ch a).jobs = s.jobs := by unfold chanClose1; (try dsimp only); (repeat' split) <;> simp
@[simp] theorem chanClose1_clock (s : S) (i c : Nat) (ch : Chan) (a : Aft) : (chanClose1 s i c ch a).clock = s.clock := by unfold chanClose1; (try dsimp only); (repeat' split) <;> simp
@[simp] theorem chanClose1_main (s : S) (i c : Nat) (ch : Chan) (a : Aft) : (chanClose1 s i c ch a).main = s.main := by unfold chanClose1; (try dsimp only); (repeat' split) <;> simp
@[simp] theorem chanClose1_envAsync (s : S) (i c : Nat) (ch : Chan) (a : Aft) : (chanClose1 s i c ch a).envAsync = s.envAsync := by unfold chanClose1; (try dsimp only); (repeat' split) <;> simp
@[simp] theorem chanClose1_envEnabled (s : S) (i c : Nat) (ch : Chan) (a : Aft) : (chanClose1 s i c ch a).envEnabled = s.envEnabled := by unfold chanClose1; (try dsimp only); (repeat' split) <;> simp
@[simp] theorem chanClose1_dead (s : S) (i c : Nat) (ch : Chan) (a : Aft) : (chanClose1 s i c ch a).dead = s.dead := by unfold chanClose1; (try dsimp only); (repeat' split) <;> simp
@[simp] theorem chanClose1_fault (s : S) (i c : Nat) (ch : Chan) (a : Aft) : (chanClose1 s i c ch a).fault = s.fault := by unfold chanClose1; (try dsimp only); (repeat' split) <;> simp
@[simp] theorem chanClose1_log (s : S) (i c : Nat) (ch : Chan) (a : Aft) : (chanClose1 s i c ch a).log = s.log := by unfold chanClose1; (try dsimp only); (repeat' split) <;> simp
@[simp] theorem chanClose_nchan (s : S) (i c : Nat) : (chanClose s i c).nchan = s.nchan := by unfold chanClose; (try dsimp only); (repeat' split) <;> simp
@[simp] theorem chanClose_mu (s : S) (i c : Nat) : (chanClose s i c).mu = s.mu := by unfold chanClose; (try dsimp only); (repeat' split) <;> simp
@[simp] theorem chanClose_wg (s : S) (i c : Nat) : (chanClose s i c).wg = s.wg := by unfold chanClose; (try dsimp only); (repeat' split) <;> simp
@[simp] theorem chanClose_all (s : S) (i c : Nat) : (chanClose s i c).all = s.all := by unfold chanClose; (try dsimp only); (repeat' split) <;> simp
@[simp] theorem chanClose_allCount (s : S) (i c : Nat) : (chanClose s i c).allCount = s.allCount := by unfold chanClose; (try dsimp only); (repeat' split) <;> simp
@[simp] theorem chanClose_dlq (s : S) (i c : Nat) : (chanClose s i c).dlq = s.dlq := by unfold chanClose; (try dsimp only); (repeat' split) <;> simp
@[simp] theorem chanClose_evw (s : S) (i c : Nat) : (chanClose s i c).evw = s.evw := by unfold chanClose; (try dsimp only); (repeat' split) <;> simp
@[simp] theorem chanClose_armed (s : S) (i c : Nat) : (chanClose s i c).armed = s.armed := by unfold chanClose; (try dsimp only); (repeat' split) <;> simp
@[simp] theorem chanClose_nsleepers (s : S) (i c : Nat) : (chanClose s i c).nsleepers = s.nsleepers := by unfold chanClose; (try dsimp only); (repeat' split) <;> simp
@[simp] theorem chanClose_nlocked (s : S) (i c : Nat) : (chanClose s i c).nlocked = s.nlocked := by unfold chanClose; (try dsimp only); (repeat' split) <;> simp
@[simp] theorem chanClose_nreceivers (s : S) (i c : Nat) : (chanClose s i c).nreceivers = s.nreceivers := by unfold chanClose; (try dsimp only); (repeat' split) <;> simp
@[simp] theorem chanClose_nsenders (s : S) (i c : Nat) : (chanClose s i c).nsenders = s.nsenders := by unfold chanClose; (try dsimp only); (repeat' split) <;> simp
@[simp] theorem chanClose_nwaitgroupers (s : S) (i c : Nat) : (chanClose s i c).nwaitgroupers = s.nwaitgroupers := by unfold chanClose; (try dsimp only); (repeat' split) <;> simp
@[simp] theorem chanClose_ncondwaiters (s : S) (i c : Nat) : (chanClose s i c).ncondwaiters = s.ncondwaiters := by unfold chanClose; (try dsimp only); (repeat' split) <;> simp
@[simp] theorem chanClose_nsuspended (s : S) (i c : Nat) : (chanClose s i c).nsuspended = s.nsuspended := by unfold chanClose; (try dsimp only); (repeat' split) <;> simp
@[simp] theorem chanClose_nevwaiters (s : S) (i c : Nat) : (chanClose s i c).nevwaiters = s.nevwaiters := by unfold chanClose; (try dsimp only); (repeat' split) <;> simp
@[simp] theorem chanClose_nsigwaiters (s : S) (i c : Nat) : (chanClose s i c).nsigwaiters = s.nsigwaiters := by unfold chanClose; (try dsimp only); (repeat' split) <;> simp
@[simp] theorem chanClose_niowaiters (s : S) (i c : Nat) : (chanClose s i c).niowaiters = s.niowaiters := by unfold chanClose; (try dsimp only); (repeat' split) <;> simp
@[simp] theorem chanClose_pool (s : S) (i c : Nat) : (chanClose s i c).pool = s.pool := by unfold chanClose; (try dsimp only); (repeat' split) <;> simp
@[simp] theorem chanClose_sigqueue (s : S) (i c : Nat) : (chanClose s i c).sigqueue = s.sigqueue := by unfold chanClose; (try dsimp only); (repeat' split) <;> simp
@[simp] theorem chanClose_sigwatchers (s : S) (i c : Nat) : (chanClose s i c).sigwatchers = s.sigwatchers := by unfold chanClose; (try dsimp only); (repeat' split) <;> simp
@[simp] theorem chanClose_jobs (s : S) (i c : Nat) : (chanClose s i c).jobs = s.jobs := by unfold chanClose; (try dsimp only); (repeat' split) <;> simp
@[simp] theorem chanClose_clock (s : S) (i c : Nat) : (chanClose s i c).clock = s.clock := by unfold chanClose; (try dsimp only); (repeat' split) <;> simp
@[simp] theorem chanClose_main (s : S) (i c : Nat) : (chanClose s i c).main = s.main := by unfold chanClose; (try dsimp only); (repeat' split) <;> simp
@[simp] theorem chanClose_envAsync (s : S) (i c : Nat) : (chanClose s i c).envAsync = s.envAsync := by unfold chanClose; (try dsimp only); (repeat' split) <;> simp
@[simp] theorem chanClose_envEnabled (s : S) (i c : Nat) : (chanClose s i c).envEnabled = s.envEnabled := by unfold chanClose; (try dsimp only); (repeat' split) <;> simp
@[simp] theorem chanClose_dead (s : S) (i c : Nat) : (chanClose s i c).dead = s.dead := by unfold chanClose; (try dsimp only); (repeat' split) <;> simp
@[simp] theorem chanClose_log (s : S) (i c : Nat) : (chanClose s i c).log = s.log := by unfold chanClose; (try dsimp only); (repeat' split) <;> simp
@[simp] theorem selPush_sco (s : S) (i k : Nat) (cs : List Nat) : (selPush s i k cs).sco = s.sco := by
  induction cs generalizing s k with
  | nil => rfl
  | cons n q ih => simp [selPush, ih]
@[simp] theorem selPush_co (s : S) (i k : Nat) (cs : List Nat) : (selPush s i k cs).co = s.co := by
  induction cs generalizing s k with
  | nil => rfl
  | cons n q ih => simp [selPush, ih]
@[simp] theorem selPush_nchan (s : S) (i k : Nat) (cs : List Nat) : (selPush s i k cs).nchan = s.nchan := by
  induction cs generalizing s k with
  | nil => rfl
  | cons n q ih => simp [selPush, ih]
@[simp] theorem selPush_mu (s : S) (i k : Nat) (cs : List Nat) : (selPush s i k cs).mu = s.mu := by
  induction cs generalizing s k with
  | nil => rfl
  | cons n q ih => simp [selPush, ih]
@[simp] theorem selPush_wg (s : S) (i k : Nat) (cs : List Nat) : (selPush s i k cs).wg = s.wg := by
  induction cs generalizing s k with
  | nil => rfl
  | cons n q ih => simp [selPush, ih]
@[simp] theorem selPush_all (s : S) (i k : Nat) (cs : List Nat) : (selPush s i k cs).all = s.all := by
  induction cs generalizing s k with
  | nil => rfl
  | cons n q ih => simp [selPush, ih]
@[simp] theorem selPush_allCount (s : S) (i k : Nat) (cs : List Nat) : (selPush s i k cs).allCount = s.allCount := by
  induction cs generalizing s k with
  | nil => rfl
  | cons n q ih => simp [selPush, ih]
@[simp] theorem selPush_dlq (s : S) (i k : Nat) (cs : List Nat) : (selPush s i k cs).dlq = s.dlq := by
  induction cs generalizing s k with
  | nil => rfl
  | cons n q ih => simp [selPush, ih]
@[simp] theorem selPush_evw (s : S) (i k : Nat) (cs : List Nat) : (selPush s i k cs).evw = s.evw := by
  induction cs generalizing s k with
  | nil => rfl
  | cons n q ih => simp [selPush, ih]
@[simp] theorem selPush_armed (s : S) (i k : Nat) (cs : List Nat) : (selPush s i k cs).armed = s.armed := by
  induction cs generalizing s k with
  | nil => rfl
  | cons n q ih => simp [selPush, ih]
@[simp] theorem selPush_nsleepers (s : S) (i k : Nat) (cs : List Nat) : (selPush s i k cs).nsleepers = s.nsleepers := by
  induction cs generalizing s k with
  | nil => rfl
  | cons n q ih => simp [selPush, ih]
@[simp] theorem selPush_nlocked (s : S) (i k : Nat) (cs : List Nat) : (selPush s i k cs).nlocked = s.nlocked := by
  induction cs generalizing s k with
  | nil => rfl
  | cons n q ih => simp [selPush, ih]
@[simp] theorem selPush_nreceivers (s : S) (i k : Nat) (cs : List Nat) : (selPush s i k cs).nreceivers = s.nreceivers := by
  induction cs generalizing s k with
  | nil => rfl
  | cons n q ih => simp [selPush, ih]
@[simp] theorem selPush_nsenders (s : S) (i k : Nat) (cs : List Nat) : (selPush s i k cs).nsenders = s.nsenders := by
  induction cs generalizing s k with
  | nil => rfl
  | cons n q ih => simp [selPush, ih]
@[simp] theorem selPush_nwaitgroupers (s : S) (i k : Nat) (cs : List Nat) : (selPush s i k cs).nwaitgroupers = s.nwaitgroupers := by
  induction cs generalizing s k with
  | nil => rfl
  | cons n q ih => simp [selPush, ih]
@[simp] theorem selPush_ncondwaiters (s : S) (i k : Nat) (cs : List Nat) : (selPush s i k cs).ncondwaiters = s.ncondwaiters := by
  induction cs generalizing s k with
  | nil => rfl
  | cons n q ih => simp [selPush, ih]
@[simp] theorem selPush_nsuspended (s : S) (i k : Nat) (cs : List Nat) : (selPush s i k cs).nsuspended = s.nsuspended := by
  induction cs generalizing s k with
  | nil => rfl
  | cons n q ih => simp [selPush, ih]
@[simp] theorem selPush_nevwaiters (s : S) (i k : Nat) (cs : List Nat) : (selPush s i k cs).nevwaiters = s.nevwaiters := by
  induction cs generalizing s k with
  | nil => rfl
  | cons n q ih => simp [selPush, ih]
@[simp] theorem selPush_nsigwaiters (s : S) (i k : Nat) (cs : List Nat) : (selPush s i k cs).nsigwaiters = s.nsigwaiters := by
  induction cs generalizing s k with
  | nil => rfl
  | cons n q ih => simp [selPush, ih]
@[simp] theorem selPush_nresumers (s : S) (i k : Nat) (cs : List Nat) : (selPush s i k cs).nresumers = s.nresumers := by
  induction cs generalizing s k with
  | nil => rfl
  | cons n q ih => simp [selPush, ih]
@[simp] theorem selPush_niowaiters (s : S) (i k : Nat) (cs : List Nat) : (selPush s i k cs).niowaiters = s.niowaiters := by
  induction cs generalizing s k with
  | nil => rfl
  | cons n q ih => simp [selPush, ih]
@[simp] theorem selPush_pool (s : S) (i k : Nat) (cs : List Nat) : (selPush s i k cs).pool = s.pool := by
  induction cs generalizing s k with
  | nil => rfl
  | cons n q ih => simp [selPush, ih]
@[simp] theorem selPush_sigqueue (s : S) (i k : Nat) (cs : List Nat) : (selPush s i k cs).sigqueue = s.sigqueue := by
  induction cs generalizing s k with
  | nil => rfl
  | cons n q ih => simp [selPush, ih]
@[simp] theorem selPush_sigwatchers (s : S) (i k : Nat) (cs : List Nat) : (selPush s i k cs).sigwatchers = s.sigwatchers := by
  induction cs generalizing s k with
  | nil => rfl
  | cons n q ih => simp [selPush, ih]
@[simp] theorem selPush_jobs (s : S) (i k : Nat) (cs : List Nat) : (selPush s i k cs).jobs = s.jobs := by
  induction cs generalizing s k with
  | nil => rfl
  | cons n q ih => simp [selPush, ih]
@[simp] theorem selPush_clock (s : S) (i k : Nat) (cs : List Nat) : (selPush s i k cs).clock = s.clock := by
  induction cs generalizing s k with
  | nil => rfl
  | cons n q ih => simp [selPush, ih]
@[simp] theorem selPush_main (s : S) (i k : Nat) (cs : List Nat) : (selPush s i k cs).main = s.main := by
  induction cs generalizing s k with
  | nil => rfl
  | cons n q ih => simp [selPush, ih]
@[simp] theorem selPush_envAsync (s : S) (i k : Nat) (cs : List Nat) : (selPush s i k cs).envAsync = s.envAsync := by
  induction cs generalizing s k with
  | nil => rfl
  | cons n q ih => simp [selPush, ih]
@[simp] theorem selPush_envEnabled (s : S) (i k : Nat) (cs : List Nat) : (selPush s i k cs).envEnabled = s.envEnabled := by
  induction cs generalizing s k with
  | nil => rfl
  | cons n q ih => simp [selPush, ih]
@[simp] theorem selPush_dead (s : S) (i k : Nat) (cs : List Nat) : (selPush s i k cs).dead = s.dead := by
  induction cs generalizing s k with
  | nil => rfl
  | cons n q ih => simp [selPush, ih]
@[simp] theorem selPush_fault (s : S) (i k : Nat) (cs : List Nat) : (selPush s i k cs).fault = s.fault := by
  induction cs generalizing s k with
  | nil => rfl
  | cons n q ih => simp [selPush, ih]
@[simp] theorem selPush_log (s : S) (i k : Nat) (cs : List Nat) : (selPush s i k cs).log = s.log := by
  induction cs generalizing s k with
  | nil => rfl
  | cons n q ih => simp [selPush, ih]
@[simp] theorem selRm_sco (s : S) (i : Nat) : (selRm s i).sco = s.sco := rfl
@[simp] theorem selRm_co (s : S) (i : Nat) : (selRm s i).co = s.co := rfl
@[simp] theorem selRm_chan (s : S) (i : Nat) : (selRm s i).chan = s.chan := rfl
@[simp] theorem selRm_nchan (s : S) (i : Nat) : (selRm s i).nchan = s.nchan := rfl
@[simp] theorem selRm_mu (s : S) (i : Nat) : (selRm s i).mu = s.mu := rfl
@[simp] theorem selRm_wg (s : S) (i : Nat) : (selRm s i).wg = s.wg := rfl
@[simp] theorem selRm_all (s : S) (i : Nat) : (selRm s i).all = s.all := rfl
@[simp] theorem selRm_allCount (s : S) (i : Nat) : (selRm s i).allCount = s.allCount := rfl
@[simp] theorem selRm_dlq (s : S) (i : Nat) : (selRm s i).dlq = s.dlq := rfl
@[simp] theorem selRm_evw (s : S) (i : Nat) : (selRm s i).evw = s.evw := rfl
@[simp] theorem selRm_armed (s : S) (i : Nat) : (selRm s i).armed = s.armed := rfl
@[simp] theorem selRm_nsleepers (s : S) (i : Nat) : (selRm s i).nsleepers = s.nsleepers := rfl
@[simp] theorem selRm_nlocked (s : S) (i : Nat) : (selRm s i).nlocked = s.nlocked := rfl
@[simp] theorem selRm_nreceivers (s : S) (i : Nat) : (selRm s i).nreceivers = s.nreceivers := rfl
@[simp] theorem selRm_nsenders (s : S) (i : Nat) : (selRm s i).nsenders = s.nsenders := rfl
@[simp] theorem selRm_nwaitgroupers (s : S) (i : Nat) : (selRm s i).nwaitgroupers = s.nwaitgroupers := rfl
@[simp] theorem selRm_ncondwaiters (s : S) (i : Nat) : (selRm s i).ncondwaiters = s.ncondwaiters := rfl
@[simp] theorem selRm_nsuspended (s : S) (i : Nat) : (selRm s i).nsuspended = s.nsuspended := rfl
@[simp] theorem selRm_nevwaiters (s : S) (i : Nat) : (selRm s i).nevwaiters = s.nevwaiters := rfl
@[simp] theorem selRm_nsigwaiters (s : S) (i : Nat) : (selRm s i).nsigwaiters = s.nsigwaiters := rfl
@[simp] theorem selRm_nresumers (s : S) (i : Nat) : (selRm s i).nresumers = s.nresumers := rfl
@[simp] theorem selRm_niowaiters (s : S) (i : Nat) : (selRm s i).niowaiters = s.niowaiters := rfl
@[simp] theorem selRm_pool (s : S) (i : Nat) : (selRm s i).pool = s.pool := rfl
@[simp] theorem selRm_sigqueue (s : S) (i : Nat) : (selRm s i).sigqueue = s.sigqueue := rfl
@[simp] theorem selRm_sigwatchers (s : S) (i : Nat) : (selRm s i).sigwatchers = s.sigwatchers := rfl
@[simp] theorem selRm_jobs (s : S) (i : Nat) : (selRm s i).jobs = s.jobs := rfl
@[simp] theorem selRm_clock (s : S) (i : Nat) : (selRm s i).clock = s.clock := rfl
@[simp] theorem selRm_main (s : S) (i : Nat) : (selRm s i).main = s.main := rfl
@[simp] theorem selRm_envAsync (s : S) (i : Nat) : (selRm s i).envAsync = s.envAsync := rfl
@[simp] theorem selRm_envEnabled (s : S) (i : Nat) : (selRm s i).envEnabled = s.envEnabled := rfl
@[simp] theorem selRm_dead (s : S) (i : Nat) : (selRm s i).dead = s.dead := rfl
@[simp] theorem selRm_fault (s : S) (i : Nat) : (selRm s i).fault = s.fault := rfl
@[simp] theorem selRm_log (s : S) (i : Nat) : (selRm s i).log = s.log := rfl
@[simp] theorem chanCase_sco (s : S) (i c : Nat) : (chanCase s i c).sco = s.sco := by unfold chanCase; (try dsimp only); (repeat' split) <;> simp
@[simp] theorem chanCase_lists (s : S) (i c : Nat) : (chanCase s i c).lists = s.lists := by unfold chanCase; (try dsimp only); (repeat' split) <;> simp
@[simp] theorem chanCase_chan (s : S) (i c : Nat) : (chanCase s i c).chan = s.chan := by unfold chanCase; (try dsimp only); (repeat' split) <;> simp
@[simp] theorem chanCase_nchan (s : S) (i c : Nat) : (chanCase s i c).nchan = s.nchan := by unfold chanCase; (try dsimp only); (repeat' split) <;> simp
@[simp] theorem chanCase_mu (s : S) (i c : Nat) : (chanCase s i c).mu = s.mu := by unfold chanCase; (try dsimp only); (repeat' split) <;> simp
@[simp] theorem chanCase_wg (s : S) (i c : Nat) : (chanCase s i c).wg = s.wg := by unfold chanCase; (try dsimp only); (repeat' split) <;> simp
@[simp] theorem chanCase_all (s : S) (i c : Nat) : (chanCase s i c).all = s.all := by unfold chanCase; (try dsimp only); (repeat' split) <;> simp
@[simp] theorem chanCase_allCount (s : S) (i c : Nat) : (chanCase s i c).allCount = s.allCount := by unfold chanCase; (try dsimp only); (repeat' split) <;> simp
@[simp] theorem chanCase_dlq (s : S) (i c : Nat) : (chanCase s i c).dlq = s.dlq := by unfold chanCase; (try dsimp only); (repeat' split) <;> simp
@[simp] theorem chanCase_evw (s : S) (i c : Nat) : (chanCase s i c).evw = s.evw := by unfold chanCase; (try dsimp only); (repeat' split) <;> simp
@[simp] theorem chanCase_armed (s : S) (i c : Nat) : (chanCase s i c).armed = s.armed := by unfold chanCase; (try dsimp only); (repeat' split) <;> simp
@[simp] theorem chanCase_nsleepers (s : S) (i c : Nat) : (chanCase s i c).nsleepers = s.nsleepers := by unfold chanCase; (try dsimp only); (repeat' split) <;> simp
@[simp] theorem chanCase_nlocked (s : S) (i c : Nat) : (chanCase s i c).nlocked = s.nlocked := by unfold chanCase; (try dsimp only); (repeat' split) <;> simp
@[simp] theorem chanCase_nreceivers (s : S) (i c : Nat) : (chanCase s i c).nreceivers = s.nreceivers := by unfold chanCase; (try dsimp only); (repeat' split) <;> simp
@[simp] theorem chanCase_nsenders (s : S) (i c : Nat) : (chanCase s i c).nsenders = s.nsenders := by unfold chanCase; (try dsimp only); (repeat' split) <;> simp
@[simp] theorem chanCase_nwaitgroupers (s : S) (i c : Nat) : (chanCase s i c).nwaitgroupers = s.nwaitgroupers := by unfold chanCase; (try dsimp only); (repeat' split) <;> simp
@[simp] theorem chanCase_ncondwaiters (s : S) (i c : Nat) : (chanCase s i c).ncondwaiters = s.ncondwaiters := by unfold chanCase; (try dsimp only); (repeat' split) <;> simp
@[simp] theorem chanCase_nsuspended (s : S) (i c : Nat) : (chanCase s i c).nsuspended = s.nsuspended := by unfold chanCase; (try dsimp only); (repeat' split) <;> simp
@[simp] theorem chanCase_nevwaiters (s : S) (i c : Nat) : (chanCase s i c).nevwaiters = s.nevwaiters := by unfold chanCase; (try dsimp only); (repeat' split) <;> simp
@[simp] theorem chanCase_nsigwaiters (s : S) (i c : Nat) : (chanCase s i c).nsigwaiters = s.nsigwaiters := by unfold chanCase; (try dsimp only); (repeat' split) <;> simp
@[simp] theorem chanCase_nresumers (s : S) (i c : Nat) : (chanCase s i c).nresumers = s.nresumers := by unfold chanCase; (try dsimp only); (repeat' split) <;> simp
@[simp] theorem chanCase_niowaiters (s : S) (i c : Nat) : (chanCase s i c).niowaiters = s.niowaiters := by unfold chanCase; (try dsimp only); (repeat' split) <;> simp
@[simp] theorem chanCase_pool (s : S) (i c : Nat) : (chanCase s i c).pool = s.pool := by unfold chanCase; (try dsimp only); (repeat' split) <;> simp
@[simp] theorem chanCase_sigqueue (s : S) (i c : Nat) : (chanCase s i c).sigqueue = s.sigqueue := by unfold chanCase; (try dsimp only); (repeat' split) <;> simp
@[simp] theorem chanCase_sigwatchers (s : S) (i c : Nat) : (chanCase s i c).sigwatchers = s.sigwatchers := by unfold chanCase; (try dsimp only); (repeat' split) <;> simp
@[simp] theorem chanCase_jobs (s : S) (i c : Nat) : (chanCase s i c).jobs = s.jobs := by unfold chanCase; (try dsimp only); (repeat' split) <;> simp
@[simp] theorem chanCase_clock (s : S) (i c : Nat) : (chanCase s i c).clock = s.clock := by unfold chanCase; (try dsimp only); (repeat' split) <;> simp
@[simp] theorem chanCase_main (s : S) (i c : Nat) : (chanCase s i c).main = s.main := by unfold chanCase; (try dsimp only); (repeat' split) <;> simp
@[simp] theorem chanCase_envAsync (s : S) (i c : Nat) : (chanCase s i c).envAsync = s.envAsync := by unfold chanCase; (try dsimp only); (repeat' split) <;> simp
@[simp] theorem chanCase_envEnabled (s : S) (i c : Nat) : (chanCase s i c).envEnabled = s.envEnabled := by unfold chanCase; (try dsimp only); (repeat' split) <;> simp
@[simp] theorem chanCase_dead (s : S) (i c : Nat) : (chanCase s i c).dead = s.dead := by unfold chanCase; (try dsimp only); (repeat' split) <;> simp
@[simp] theorem chanCase_log (s : S) (i c : Nat) : (chanCase s i c).log = s.log := by unfold chanCase; (try dsimp only); (repeat' split) <;> simp
@[simp] theorem setMu_sco (s : S) (m : Nat) (x : Mu) : (setMu s m x).sco = s.sco := rfl
@[simp] theorem setMu_co (s : S) (m : Nat) (x : Mu) : (setMu s m x).co = s.co := rfl
@[simp] theorem setMu_lists (s : S) (m : Nat) (x : Mu) : (setMu s m x).lists = s.lists := rfl
@[simp] theorem setMu_chan (s : S) (m : Nat) (x : Mu) : (setMu s m x).chan = s.chan := rfl
@[simp] theorem setMu_nchan (s : S) (m : Nat) (x : Mu) : (setMu s m x).nchan = s.nchan := rfl
@[simp] theorem setMu_wg (s : S) (m : Nat) (x : Mu) : (setMu s m x).wg = s.wg := rfl
@[simp] theorem setMu_all (s : S) (m : Nat) (x : Mu) : (setMu s m x).all = s.all := rfl
@[simp] theorem setMu_allCount (s : S) (m : Nat) (x : Mu) : (setMu s m x).allCount = s.allCount := rfl
@[simp] theorem setMu_dlq (s : S) (m : Nat) (x : Mu) : (setMu s m x).dlq = s.dlq := rfl
@[simp] theorem setMu_evw (s : S) (m : Nat) (x : Mu) : (setMu s m x).evw = s.evw := rfl
@[simp] theorem setMu_armed (s : S) (m : Nat) (x : Mu) : (setMu s m x).armed = s.armed := rfl
@[simp] theorem setMu_nsleepers (s : S) (m : Nat) (x : Mu) : (setMu s m x).nsleepers = s.nsleepers := rfl
@[simp] theorem setMu_nlocked (s : S) (m : Nat) (x : Mu) : (setMu s m x).nlocked = s.nlocked := rfl
@[simp] theorem setMu_nreceivers (s : S) (m : Nat) (x : Mu) : (setMu s m x).nreceivers = s.nreceivers := rfl
@[simp] theorem setMu_nsenders (s : S) (m : Nat) (x : Mu) : (setMu s m x).nsenders = s.nsenders := rfl
@[simp] theorem setMu_nwaitgroupers (s : S) (m : Nat) (x : Mu) : (setMu s m x).nwaitgroupers = s.nwaitgroupers := rfl
@[simp] theorem setMu_ncondwaiters (s : S) (m : Nat) (x : Mu) : (setMu s m x).ncondwaiters = s.ncondwaiters := rfl
@[simp] theorem setMu_nsuspended (s : S) (m : Nat) (x : Mu) : (setMu s m x).nsuspended = s.nsuspended := rfl
@[simp] theorem setMu_nevwaiters (s : S) (m : Nat) (x : Mu) : (setMu s m x).nevwaiters = s.nevwaiters := rfl
@[simp] theorem setMu_nsigwaiters (s : S) (m : Nat) (x : Mu) : (setMu s m x).nsigwaiters = s.nsigwaiters := rfl
@[simp] theorem setMu_nresumers (s : S) (m : Nat) (x : Mu) : (setMu s m x).nresumers = s.nresumers := rfl
@[simp] theorem setMu_niowaiters (s : S) (m : Nat) (x : Mu) : (setMu s m x).niowaiters = s.niowaiters := rfl
@[simp] theorem setMu_pool (s : S) (m : Nat) (x : Mu) : (setMu s m x).pool = s.pool := rfl
@[simp] theorem setMu_sigqueue (s : S) (m : Nat) (x : Mu) : (setMu s m x).sigqueue = s.sigqueue := rfl
@[simp] theorem setMu_sigwatchers (s : S) (m : Nat) (x : Mu) : (setMu s m x).sigwatchers = s.sigwatchers := rfl
@[simp] theorem setMu_jobs (s : S) (m : Nat) (x : Mu) : (setMu s m x).jobs = s.jobs := rfl
@[simp] theorem setMu_clock (s : S) (m : Nat) (x : Mu) : (setMu s m x).clock = s.clock := rfl
@[simp] theorem setMu_main (s : S) (m : Nat) (x : Mu) : (setMu s m x).main = s.main := rfl
@[simp] theorem setMu_envAsync (s : S) (m : Nat) (x : Mu) : (setMu s m x).envAsync = s.envAsync := rfl
@[simp] theorem setMu_envEnabled (s : S) (m : Nat) (x : Mu) : (setMu s m x).envEnabled = s.envEnabled := rfl
@[simp] theorem setMu_dead (s : S) (m : Nat) (x : Mu) : (setMu s m x).dead = s.dead := rfl
@[simp] theorem setMu_fault (s : S) (m : Nat) (x : Mu) : (setMu s m x).fault = s.fault := rfl
@[simp] theorem setMu_log (s : S) (m : Nat) (x : Mu) : (setMu s m x).log = s.log := rfl
@[simp] theorem finishLock_chan (s : S) (i m : Nat) (rd : Bool) (dl : Int) (b : Blk) : (finishLock s i m rd dl b).chan = s.chan := by unfold finishLock; simp
@[simp] theorem finishLock_nchan (s : S) (i m : Nat) (rd : Bool) (dl : Int) (b : Blk) : (finishLock s i m rd dl b).nchan = s.nchan := by unfold finishLock; simp
@[simp] theorem finishLock_mu (s : S) (i m : Nat) (rd : Bool) (dl : Int) (b : Blk) : (finishLock s i m rd dl b).mu = s.mu := by unfold finishLock; simp
@[simp] theorem finishLock_wg (s : S) (i m : Nat) (rd : Bool) (dl : Int) (b : Blk) : (finishLock s i m rd dl b).wg = s.wg := by unfold finishLock; simp
@[simp] theorem finishLock_all (s : S) (i m : Nat) (rd : Bool) (dl : Int) (b : Blk) : (finishLock s i m rd dl b).all = s.all := by unfold finishLock; simp
@[simp] theorem finishLock_allCount (s : S) (i m : Nat) (rd : Bool) (dl : Int) (b : Blk) : (finishLock s i m rd dl b).allCount = s.allCount := by unfold finishLock; simp
@[simp] theorem finishLock_evw (s : S) (i m : Nat) (rd : Bool) (dl : Int) (b : Blk) : (finishLock s i m rd dl b).evw = s.evw := by unfold finishLock; simp
@[simp] theorem finishLock_armed (s : S) (i m : Nat) (rd : Bool) (dl : Int) (b : Blk) : (finishLock s i m rd dl b).armed = s.armed := by unfold finishLock; simp
@[simp] theorem finishLock_nsleepers (s : S) (i m : Nat) (rd : Bool) (dl : Int) (b : Blk) : (finishLock s i m rd dl b).nsleepers = s.nsleepers := by unfold finishLock; simp
@[simp] theorem finishLock_nreceivers (s : S) (i m : Nat) (rd : Bool) (dl : Int) (b : Blk) : (finishLock s i m rd dl b).nreceivers = s.nreceivers := by unfold finishLock; simp
@[simp] theorem finishLock_nsenders (s : S) (i m : Nat) (rd : Bool) (dl : Int) (b : Blk) : (finishLock s i m rd dl b).nsenders = s.nsenders := by unfold finishLock; simp
@[simp] theorem finishLock_nwaitgroupers (s : S) (i m : Nat) (rd : Bool) (dl : Int) (b : Blk) : (finishLock s i m rd dl b).nwaitgroupers = s.nwaitgroupers := by unfold finishLock; simp
@[simp] theorem finishLock_ncondwaiters (s : S) (i m : Nat) (rd : Bool) (dl : Int) (b : Blk) : (finishLock s i m rd dl b).ncondwaiters = s.ncondwaiters := by unfold finishLock; simp
@[simp] theorem finishLock_nsuspended (s : S) (i m : Nat) (rd : Bool) (dl : Int) (b : Blk) : (finishLock s i m rd dl b).nsuspended = s.nsuspended := by unfold finishLock; simp
@[simp] theorem finishLock_nevwaiters (s : S) (i m : Nat) (rd : Bool) (dl : Int) (b : Blk) : (finishLock s i m rd dl b).nevwaiters = s.nevwaiters := by unfold finishLock; simp
@[simp] theorem finishLock_nsigwaiters (s : S) (i m : Nat) (rd : Bool) (dl : Int) (b : Blk) : (finishLock s i m rd dl b).nsigwaiters = s.nsigwaiters := by unfold finishLock; simp
@[simp] theorem finishLock_nresumers (s : S) (i m : Nat) (rd : Bool) (dl : Int) (b : Blk) : (finishLock s i m rd dl b).nresumers = s.nresumers := by unfold finishLock; simp
@[simp] theorem finishLock_niowaiters (s : S) (i m : Nat) (rd : Bool) (dl : Int) (b : Blk) : (finishLock s i m rd dl b).niowaiters = s.niowaiters := by unfold finishLock; simp
@[simp] theorem finishLock_pool (s : S) (i m : Nat) (rd : Bool) (dl : Int) (b : Blk) : (finishLock s i m rd dl b).pool = s.pool := by unfold finishLock; simp
@[simp] theorem finishLock_sigqueue (s : S) (i m : Nat) (rd : Bool) (dl : Int) (b : Blk) : (finishLock s i m rd dl b).sigqueue = s.sigqueue := by unfold finishLock; simp
@[simp] theorem finishLock_sigwatchers (s : S) (i m : Nat) (rd : Bool) (dl : Int) (b : Blk) : (finishLock s i m rd dl b).sigwatchers = s.sigwatchers := by unfold finishLock; simp
@[simp] theorem finishLock_jobs (s : S) (i m : Nat) (rd : Bool) (dl : Int) (b : Blk) : (finishLock s i m rd dl b).jobs = s.jobs := by unfold finishLock; simp
@[simp] theorem finishLock_clock (s : S) (i m : Nat) (rd : Bool) (dl : Int) (b : Blk) : (finishLock s i m rd dl b).clock = s.clock := by unfold finishLock; simp
@[simp] theorem finishLock_main (s : S) (i m : Nat) (rd : Bool) (dl : Int) (b : Blk) : (finishLock s i m rd dl b).main = s.main := by unfold finishLock; simp
@[simp] theorem finishLock_envAsync (s : S) (i m : Nat) (rd : Bool) (dl : Int) (b : Blk) : (finishLock s i m rd dl b).envAsync = s.envAsync := by unfold finishLock; simp
@[simp] theorem finishLock_envEnabled (s : S) (i m : Nat) (rd : Bool) (dl : Int) (b : Blk) : (finishLock s i m rd dl b).envEnabled = s.envEnabled := by unfold finishLock; simp
@[simp] theorem finishLock_dead (s : S) (i m : Nat) (rd : Bool) (dl : Int) (b : Blk) : (finishLock s i m rd dl b).dead = s.dead := by unfold finishLock; simp
@[simp] theorem finishLock_fault (s : S) (i m : Nat) (rd : Bool) (dl : Int) (b : Blk) : (finishLock s i m rd dl b).fault = s.fault := by unfold finishLock; simp
@[simp] theorem finishLock_log (s : S) (i m : Nat) (rd : Bool) (dl : Int) (b : Blk) : (finishLock s i m rd dl b).log = s.log := by unfold finishLock; simp
@[simp] theorem muLock_chan (s : S) (i m : Nat) (dl : Int) : (muLock s i m dl).chan = s.chan := by unfold muLock; (try dsimp only); (repeat' split) <;> simp
@[simp] theorem muLock_nchan (s : S) (i m : Nat) (dl : Int) : (muLock s i m dl).nchan = s.nchan := by unfold muLock; (try dsimp only); (repeat' split) <;> simp
@[simp] theorem muLock_wg (s : S) (i m : Nat) (dl : Int) : (muLock s i m dl).wg = s.wg := by unfold muLock; (try dsimp only); (repeat' split) <;> simp
@[simp] theorem muLock_all (s : S) (i m : Nat) (dl : Int) : (muLock s i m dl).all = s.all := by unfold muLock; (try dsimp only); (repeat' split) <;> simp
@[simp] theorem muLock_allCount (s : S) (i m : Nat) (dl : Int) : (muLock s i m dl).allCount = s.allCount := by unfold muLock; (try dsimp only); (repeat' split) <;> simp
@[simp] theorem muLock_evw (s : S) (i m : Nat) (dl : Int) : (muLock s i m dl).evw = s.evw := by unfold muLock; (try dsimp only); (repeat' split) <;> simp
@[simp] theorem muLock_armed (s : S) (i m : Nat) (dl : Int) : (muLock s i m dl).armed = s.armed := by unfold muLock; (try dsimp only); (repeat' split) <;> simp
@[simp] theorem muLock_nsleepers (s : S) (i m : Nat) (dl : Int) : (muLock s i m dl).nsleepers = s.nsleepers := by unfold muLock; (try dsimp only); (repeat' split) <;> simp
@[simp] theorem muLock_nreceivers (s : S) (i m : Nat) (dl : Int) : (muLock s i m dl).nreceivers = s.nreceivers := by unfold muLock; (try dsimp only); (repeat' split) <;> simp
@[simp] theorem muLock_nsenders (s : S) (i m : Nat) (dl : Int) : (muLock s i m dl).nsenders = s.nsenders := by unfold muLock; (try dsimp only); (repeat' split) <;> simp
@[simp] theorem muLock_nwaitgroupers (s : S) (i m : Nat) (dl : Int) : (muLock s i m dl).nwaitgroupers = s.nwaitgroupers := by unfold muLock; (try dsimp only); (repeat' split) <;> simp
@[simp] theorem muLock_ncondwaiters (s : S) (i m : Nat) (dl : Int) : (muLock s i m dl).ncondwaiters = s.ncondwaiters := by unfold muLock; (try dsimp only); (repeat' split) <;> simp
@[simp] theorem muLock_nsuspended (s : S) (i m : Nat) (dl : Int) : (muLock s i m dl).nsuspended = s.nsuspended := by unfold muLock; (try dsimp only); (repeat' split) <;> simp
@[simp] theorem muLock_nevwaiters (s : S) (i m : Nat) (dl : Int) : (muLock s i m dl).nevwaiters = s.nevwaiters := by unfold muLock; (try dsimp only); (repeat' split) <;> simp
@[simp] theorem muLock_nsigwaiters (s : S) (i m : Nat) (dl : Int) : (muLock s i m dl).nsigwaiters = s.nsigwaiters := by unfold muLock; (try dsimp only); (repeat' split) <;> simp
@[simp] theorem muLock_nresumers (s : S) (i m : Nat) (dl : Int) : (muLock s i m dl).nresumers = s.nresumers := by unfold muLock; (try dsimp only); (repeat' split) <;> simp
@[simp] theorem muLock_niowaiters (s : S) (i m : Nat) (dl : Int) : (muLock s i m dl).niowaiters = s.niowaiters := by unfold muLock; (try dsimp only); (repeat' split) <;> simp
@[simp] theorem muLock_pool (s : S) (i m : Nat) (dl : Int) : (muLock s i m dl).pool = s.pool := by unfold muLock; (try dsimp only); (repeat' split) <;> simp
@[simp] theorem muLock_sigqueue (s : S) (i m : Nat) (dl : Int) : (muLock s i m dl).sigqueue = s.sigqueue := by unfold muLock; (try dsimp only); (repeat' split) <;> simp
@[simp] theorem muLock_sigwatchers (s : S) (i m : Nat) (dl : Int) : (muLock s i m dl).sigwatchers = s.sigwatchers := by unfold muLock; (try dsimp only); (repeat' split) <;> simp
@[simp] theorem muLock_jobs (s : S) (i m : Nat) (dl : Int) : (muLock s i m dl).jobs = s.jobs := by unfold muLock; (try dsimp only); (repeat' split) <;> simp
@[simp] theorem muLock_clock (s : S) (i m : Nat) (dl : Int) : (muLock s i m dl).clock = s.clock := by unfold muLock; (try dsimp only); (repeat' split) <;> simp
@[simp] theorem muLock_main (s : S) (i m : Nat) (dl : Int) : (muLock s i m dl).main = s.main := by unfold muLock; (try dsimp only); (repeat' split) <;> simp
@[simp] theorem muLock_envAsync (s : S) (i m : Nat) (dl : Int) : (muLock s i m dl).envAsync = s.envAsync := by unfold muLock; (try dsimp only); (repeat' split) <;> simp
@[simp] theorem muLock_envEnabled (s : S) (i m : Nat) (dl : Int) : (muLock s i m dl).envEnabled = s.envEnabled := by unfold muLock; (try dsimp only); (repeat' split) <;> simp
@[simp] theorem muLock_dead (s : S) (i m : Nat) (dl : Int) : (muLock s i m dl).dead = s.dead := by unfold muLock; (try dsimp only); (repeat' split) <;> simp
@[simp] theorem muLock_fault (s : S) (i m : Nat) (dl : Int) : (muLock s i m dl).fault = s.fault := by unfold muLock; (try dsimp only); (repeat' split) <;> simp
@[simp] theorem muRdlock_chan (s : S) (i m : Nat) (dl : Int) : (muRdlock s i m dl).chan = s.chan := by unfold muRdlock; (try dsimp only); (repeat' split) <;> simp
@[simp] theorem muRdlock_nchan (s : S) (i m : Nat) (dl : Int) : (muRdlock s i m dl).nchan = s.nchan := by unfold muRdlock; (try dsimp only); (repeat' split) <;> simp
@[simp] theorem muRdlock_wg (s : S) (i m : Nat) (dl : Int) : (muRdlock s i m dl).wg = s.wg := by unfold muRdlock; (try dsimp only); (repeat' split) <;> simp
@[simp] theorem muRdlock_all (s : S) (i m : Nat) (dl : Int) : (muRdlock s i m dl).all = s.all := by unfold muRdlock; (try dsimp only); (repeat' split) <;> simp
@[simp] theorem muRdlock_allCount (s : S) (i m : Nat) (dl : Int) : (muRdlock s i m dl).allCount = s.allCount := by unfold muRdlock; (try dsimp only); (repeat' split) <;> simp
@[simp] theorem muRdlock_evw (s : S) (i m : Nat) (dl : Int) : (muRdlock s i m dl).evw = s.evw := by unfold muRdlock; (try dsimp only); (repeat' split) <;> simp
@[simp] theorem muRdlock_armed (s : S) (i m : Nat) (dl : Int) : (muRdlock s i m dl).armed = s.armed := by unfold muRdlock; (try dsimp only); (repeat' split) <;> simp
@[simp] theorem muRdlock_nsleepers (s : S) (i m : Nat) (dl : Int) : (muRdlock s i m dl).nsleepers = s.nsleepers := by unfold muRdlock; (try dsimp only); (repeat' split) <;> simp
@[simp] theorem muRdlock_nreceivers (s : S) (i m : Nat) (dl : Int) : (muRdlock s i m dl).nreceivers = s.nreceivers := by unfold muRdlock; (try dsimp only); (repeat' split) <;> simp
@[simp] theorem muRdlock_nsenders (s : S) (i m : Nat) (dl : Int) : (muRdlock s i m dl).nsenders = s.nsenders := by unfold muRdlock; (try dsimp only); (repeat' split) <;> simp
@[simp] theorem muRdlock_nwaitgroupers (s : S) (i m : Nat) (dl : Int) : (muRdlock s i m dl).nwaitgroupers = s.nwaitgroupers := by unfold muRdlock; (try dsimp only); (repeat' split) <;> simp
@[simp] theorem muRdlock_ncondwaiters (s : S) (i m : Nat) (dl : Int) : (muRdlock s i m dl).ncondwaiters = s.ncondwaiters := by unfold muRdlock; (try dsimp only); (repeat' split) <;> simp
@[simp] theorem muRdlock_nsuspended (s : S) (i m : Nat) (dl : Int) : (muRdlock s i m dl).nsuspended = s.nsuspended := by unfold muRdlock; (try dsimp only); (repeat' split) <;> simp
@[simp] theorem muRdlock_nevwaiters (s : S) (i m : Nat) (dl : Int) : (muRdlock s i m dl).nevwaiters = s.nevwaiters := by unfold muRdlock; (try dsimp only); (repeat' split) <;> simp
@[simp] theorem muRdlock_nsigwaiters (s : S) (i m : Nat) (dl : Int) : (muRdlock s i m dl).nsigwaiters = s.nsigwaiters := by unfold muRdlock; (try dsimp only); (repeat' split) <;> simp
@[simp] theorem muRdlock_nresumers (s : S) (i m : Nat) (dl : Int) : (muRdlock s i m dl).nresumers = s.nresumers := by unfold muRdlock; (try dsimp only); (repeat' split) <;> simp
@[simp] theorem muRdlock_niowaiters (s : S) (i m : Nat) (dl : Int) : (muRdlock s i m dl).niowaiters = s.niowaiters := by unfold muRdlock; (try dsimp only); (repeat' split) <;> simp
@[simp] theorem muRdlock_pool (s : S) (i m : Nat) (dl : Int) : (muRdlock s i m dl).pool = s.pool := by unfold muRdlock; (try dsimp only); (repeat' split) <;> simp
@[simp] theorem muRdlock_sigqueue (s : S) (i m : Nat) (dl : Int) : (muRdlock s i m dl).sigqueue = s.sigqueue := by unfold muRdlock; (try dsimp only); (repeat' split) <;> simp
@[simp] theorem muRdlock_sigwatchers (s : S) (i m : Nat) (dl : Int) : (muRdlock s i m dl).sigwatchers = s.sigwatchers := by unfold muRdlock; (try dsimp only); (repeat' split) <;> simp
@[simp] theorem muRdlock_jobs (s : S) (i m : Nat) (dl : Int) : (muRdlock s i m dl).jobs = s.jobs := by unfold muRdlock; (try dsimp only); (repeat' split) <;> simp
@[simp] theorem muRdlock_clock (s : S) (i m : Nat) (dl : Int) : (muRdlock s i m dl).clock = s.clock := by unfold muRdlock; (try dsimp only); (repeat' split) <;> simp
@[simp] theorem muRdlock_main (s : S) (i m : Nat) (dl : Int) : (muRdlock s i m dl).main = s.main := by unfold muRdlock; (try dsimp only); (repeat' split) <;> simp
@[simp] theorem muRdlock_envAsync (s : S) (i m : Nat) (dl : Int) : (muRdlock s i m dl).envAsync = s.envAsync := by unfold muRdlock; (try dsimp only); (repeat' split) <;> simp
@[simp] theorem muRdlock_envEnabled (s : S) (i m : Nat) (dl : Int) : (muRdlock s i m dl).envEnabled = s.envEnabled := by unfold muRdlock; (try dsimp only); (repeat' split) <;> simp
@[simp] theorem muRdlock_dead (s : S) (i m : Nat) (dl : Int) : (muRdlock s i m dl).dead = s.dead := by unfold muRdlock; (try dsimp only); (repeat' split) <;> simp
@[simp] theorem muRdlock_fault (s : S) (i m : Nat) (dl : Int) : (muRdlock s i m dl).fault = s.fault := by unfold muRdlock; (try dsimp only); (repeat' split) <;> simp
@[simp] theorem muTrylock_sco (s : S) (i m : Nat) : (muTrylock s i m).sco = s.sco := by unfold muTrylock; (try dsimp only); (repeat' split) <;> simp
@[simp] theorem muTrylock_lists (s : S) (i m : Nat) : (muTrylock s i m).lists = s.lists := by unfold muTrylock; (try dsimp only); (repeat' split) <;> simp
@[simp] theorem muTrylock_chan (s : S) (i m : Nat) : (muTrylock s i m).chan = s.chan := by unfold muTrylock; (try dsimp only); (repeat' split) <;> simp
@[simp] theorem muTrylock_nchan (s : S) (i m : Nat) : (muTrylock s i m).nchan = s.nchan := by unfold muTrylock; (try dsimp only); (repeat' split) <;> simp
@[simp] theorem muTrylock_wg (s : S) (i m : Nat) : (muTrylock s i m).wg = s.wg := by unfold muTrylock; (try dsimp only); (repeat' split) <;> simp
@[simp] theorem muTrylock_all (s : S) (i m : Nat) : (muTrylock s i m).all = s.all := by unfold muTrylock; (try dsimp only); (repeat' split) <;> simp
@[simp] theorem muTrylock_allCount (s : S) (i m : Nat) : (muTrylock s i m).allCount = s.allCount := by unfold muTrylock; (try dsimp only); (repeat' split) <;> simp
@[simp] theorem muTrylock_dlq (s : S) (i m : Nat) : (muTrylock s i m).dlq = s.dlq := by unfold muTrylock; (try dsimp only); (repeat' split) <;> simp
@[simp] theorem muTrylock_evw (s : S) (i m : Nat) : (muTrylock s i m).evw = s.evw := by unfold muTrylock; (try dsimp only); (repeat' split) <;> simp
@[simp] theorem muTrylock_armed (s : S) (i m : Nat) : (muTrylock s i m).armed = s.armed := by unfold muTrylock; (try dsimp only); (repeat' split) <;> simp
@[simp] theorem muTrylock_nsleepers (s : S) (i m : Nat) : (muTrylock s i m).nsleepers = s.nsleepers := by unfold muTrylock; (try dsimp only); (repeat' split) <;> simp
@[simp] theorem muTrylock_nlocked (s : S) (i m : Nat) : (muTrylock s i m).nlocked = s.nlocked := by unfold muTrylock; (try dsimp only); (repeat' split) <;> simp
@[simp] theorem muTrylock_nreceivers (s : S) (i m : Nat) : (muTrylock s i m).nreceivers = s.nreceivers := by unfold muTrylock; (try dsimp only); (repeat' split) <;> simp
@[simp] theorem muTrylock_nsenders (s : S) (i m : Nat) : (muTrylock s i m).nsenders = s.nsenders := by unfold muTrylock; (try dsimp only); (repeat' split) <;> simp
@[simp] theorem muTrylock_nwaitgroupers (s : S) (i m : Nat) : (muTrylock s i m).nwaitgroupers = s.nwaitgroupers := by unfold muTrylock; (try dsimp only); (repeat' split) <;> simp
@[simp] theorem muTrylock_ncondwaiters (s : S) (i m : Nat) : (muTrylock s i m).ncondwaiters = s.ncondwaiters := by unfold muTrylock; (try dsimp only); (repeat' split) <;> simp
@[simp] theorem muTrylock_nsuspended (s : S) (i m : Nat) : (muTrylock s i m).nsuspended = s.nsuspended := by unfold muTrylock; (try dsimp only); (repeat' split) <;> simp
@[simp] theorem muTrylock_nevwaiters (s : S) (i m : Nat) : (muTrylock s i m).nevwaiters = s.nevwaiters := by unfold muTrylock; (try dsimp only); (repeat' split) <;> simp
@[simp] theorem muTrylock_nsigwaiters (s : S) (i m : Nat) : (muTrylock s i m).nsigwaiters = s.nsigwaiters := by unfold muTrylock; (try dsimp only); (repeat' split) <;> simp
@[simp] theorem muTrylock_nresumers (s : S) (i m : Nat) : (muTrylock s i m).nresumers = s.nresumers := by unfold muTrylock; (try dsimp only); (repeat' split) <;> simp
@[simp] theorem muTrylock_niowaiters (s : S) (i m : Nat) : (muTrylock s i m).niowaiters = s.niowaiters := by unfold muTrylock; (try dsimp only); (repeat' split) <;> simp
@[simp] theorem muTrylock_pool (s : S) (i m : Nat) : (muTrylock s i m).pool = s.pool := by unfold muTrylock; (try dsimp only); (repeat' split) <;> simp
@[simp] theorem muTrylock_sigqueue (s : S) (i m : Nat) : (muTrylock s i m).sigqueue = s.sigqueue := by unfold muTrylock; (try dsimp only); (repeat' split) <;> simp
@[simp] theorem muTrylock_sigwatchers (s : S) (i m : Nat) : (muTrylock s i m).sigwatchers = s.sigwatchers := by unfold muTrylock; (try dsimp only); (repeat' split) <;> simp
@[simp] theorem muTrylock_jobs (s : S) (i m : Nat) : (muTrylock s i m).jobs = s.jobs := by unfold muTrylock; (try dsimp only); (repeat' split) <;> simp
@[simp] theorem muTrylock_clock (s : S) (i m : Nat) : (muTrylock s i m).clock = s.clock := by unfold muTrylock; (try dsimp only); (repeat' split) <;> simp
@[simp] theorem muTrylock_main (s : S) (i m : Nat) : (muTrylock s i m).main = s.main := by unfold muTrylock; (try dsimp only); (repeat' split) <;> simp
@[simp] theorem muTrylock_envAsync (s : S) (i m : Nat) : (muTrylock s i m).envAsync = s.envAsync := by unfold muTrylock; (try dsimp only); (repeat' split) <;> simp
@[simp] theorem muTrylock_envEnabled (s : S) (i m : Nat) : (muTrylock s i m).envEnabled = s.envEnabled := by unfold muTrylock; (try dsimp only); (repeat' split) <;> simp
@[simp] theorem muTrylock_dead (s : S) (i m : Nat) : (muTrylock s i m).dead = s.dead := by unfold muTrylock; (try dsimp only); (repeat' split) <;> simp
@[simp] theorem muTrylock_fault (s : S) (i m : Nat) : (muTrylock s i m).fault = s.fault := by unfold muTrylock; (try dsimp only); (repeat' split) <;> simp
@[simp] theorem muTryrdlock_sco (s : S) (i m : Nat) : (muTryrdlock s i m).sco = s.sco := by unfold muTryrdlock; (try dsimp only); (repeat' split) <;> simp
@[simp] theorem muTryrdlock_lists (s : S) (i m : Nat) : (muTryrdlock s i m).lists = s.lists := by unfold muTryrdlock; (try dsimp only); (repeat' split) <;> simp
@[simp] theorem muTryrdlock_chan (s : S) (i m : Nat) : (muTryrdlock s i m).chan = s.chan := by unfold muTryrdlock; (try dsimp only); (repeat' split) <;> simp
@[simp] theorem muTryrdlock_nchan (s : S) (i m : Nat) : (muTryrdlock s i m).nchan = s.nchan := by unfold muTryrdlock; (try dsimp only); (repeat' split) <;> simp
@[simp] theorem muTryrdlock_wg (s : S) (i m : Nat) : (muTryrdlock s i m).wg = s.wg := by unfold muTryrdlock; (try dsimp only); (repeat' split) <;> simp
@[simp] theorem muTryrdlock_all (s : S) (i m : Nat) : (muTryrdlock s i m).all = s.all := by unfold muTryrdlock; (try dsimp only); (repeat' split) <;> simp
@[simp] theorem muTryrdlock_allCount (s : S) (i m : Nat) : (muTryrdlock s i m).allCount = s.allCount := by unfold muTryrdlock; (try dsimp only); (repeat' split) <;> simp
@[simp] theorem muTryrdlock_dlq (s : S) (i m : Nat) : (muTryrdlock s i m).dlq = s.dlq := by unfold muTryrdlock; (try dsimp only); (repeat' split) <;> simp
@[simp] theorem muTryrdlock_evw (s : S) (i m : Nat) : (muTryrdlock s i m).evw = s.evw := by unfold muTryrdlock; (try dsimp only); (repeat' split) <;> simp
@[simp] theorem muTryrdlock_armed (s : S) (i m : Nat) : (muTryrdlock s i m).armed = s.armed := by unfold muTryrdlock; (try dsimp only); (repeat' split) <;> simp
@[simp] theorem muTryrdlock_nsleepers (s : S) (i m : Nat) : (muTryrdlock s i m).nsleepers = s.nsleepers := by unfold muTryrdlock; (try dsimp only); (repeat' split) <;> simp
@[simp] theorem muTryrdlock_nlocked (s : S) (i m : Nat) : (muTryrdlock s i m).nlocked = s.nlocked := by unfold muTryrdlock; (try dsimp only); (repeat' split) <;> simp
@[simp] theorem muTryrdlock_nreceivers (s : S) (i m : Nat) : (muTryrdlock s i m).nreceivers = s.nreceivers := by unfold muTryrdlock; (try dsimp only); (repeat' split) <;> simp
@[simp] theorem muTryrdlock_nsenders (s : S) (i m : Nat) : (muTryrdlock s i m).nsenders = s.nsenders := by unfold muTryrdlock; (try dsimp only); (repeat' split) <;> simp
@[simp] theorem muTryrdlock_nwaitgroupers (s : S) (i m : Nat) : (muTryrdlock s i m).nwaitgroupers = s.nwaitgroupers := by unfold muTryrdlock; (try dsimp only); (repeat' split) <;> simp
@[simp] theorem muTryrdlock_ncondwaiters (s : S) (i m : Nat) : (muTryrdlock s i m).ncondwaiters = s.ncondwaiters := by unfold muTryrdlock; (try dsimp only); (repeat' split) <;> simp
@[simp] theorem muTryrdlock_nsuspended (s : S) (i m : Nat) : (muTryrdlock s i m).nsuspended = s.nsuspended := by unfold muTryrdlock; (try dsimp only); (repeat' split) <;> simp
@[simp] theorem muTryrdlock_nevwaiters (s : S) (i m : Nat) : (muTryrdlock s i m).nevwaiters = s.nevwaiters := by unfold muTryrdlock; (try dsimp only); (repeat' split) <;> simp
@[simp] theorem muTryrdlock_nsigwaiters (s : S) (i m : Nat) : (muTryrdlock s i m).nsigwaiters = s.nsigwaiters := by unfold muTryrdlock; (try dsimp only); (repeat' split) <;> simp
@[simp] theorem muTryrdlock_nresumers (s : S) (i m : Nat) : (muTryrdlock s i m).nresumers = s.nresumers := by unfold muTryrdlock; (try dsimp only); (repeat' split) <;> simp
@[simp] theorem muTryrdlock_niowaiters (s : S) (i m : Nat) : (muTryrdlock s i m).niowaiters = s.niowaiters := by unfold muTryrdlock; (try dsimp only); (repeat' split) <;> simp
@[simp] theorem muTryrdlock_pool (s : S) (i m : Nat) : (muTryrdlock s i m).pool = s.pool := by unfold muTryrdlock; (try dsimp only); (repeat' split) <;> simp
@[simp] theorem muTryrdlock_sigqueue (s : S) (i m : Nat) : (muTryrdlock s i m).sigqueue = s.sigqueue := by unfold muTryrdlock; (try dsimp only); (repeat' split) <;> simp
@[simp] theorem muTryrdlock_sigwatchers (s : S) (i m : Nat) : (muTryrdlock s i m).sigwatchers = s.sigwatchers := by unfold muTryrdlock; (try dsimp only); (repeat' split) <;> simp
@[simp] theorem muTryrdlock_jobs (s : S) (i m : Nat) : (muTryrdlock s i m).jobs = s.jobs := by unfold muTryrdlock; (try dsimp only); (repeat' split) <;> simp
@[simp] theorem muTryrdlock_clock (s : S) (i m : Nat) : (muTryrdlock s i m).clock = s.clock := by unfold muTryrdlock; (try dsimp only); (repeat' split) <;> simp
@[simp] theorem muTryrdlock_main (s : S) (i m : Nat) : (muTryrdlock s i m).main = s.main := by unfold muTryrdlock; (try dsimp only); (repeat' split) <;> simp
@[simp] theorem muTryrdlock_envAsync (s : S) (i m : Nat) : (muTryrdlock s i m).envAsync = s.envAsync := by unfold muTryrdlock; (try dsimp only); (repeat' split) <;> simp
@[simp] theorem muTryrdlock_envEnabled (s : S) (i m : Nat) : (muTryrdlock s i m).envEnabled = s.envEnabled := by unfold muTryrdlock; (try dsimp only); (repeat' split) <;> simp
@[simp] theorem muTryrdlock_dead (s : S) (i m : Nat) : (muTryrdlock s i m).dead = s.dead := by unfold muTryrdlock; (try dsimp only); (repeat' split) <;> simp
@[simp] theorem muTryrdlock_fault (s : S) (i m : Nat) : (muTryrdlock s i m).fault = s.fault := by unfold muTryrdlock; (try dsimp only); (repeat' split) <;> simp
@[simp] theorem handoff_sco (s : S) (m : Nat) (q : List Node) : (handoff s m q).sco = s.sco := by
  induction q generalizing s with
  | nil => rfl
  | cons n q ih => simp only [handoff]; (repeat' split) <;> simp [ih]
@[simp] theorem handoff_co (s : S) (m : Nat) (q : List Node) : (handoff s m q).co = s.co := by
  induction q generalizing s with
  | nil => rfl
  | cons n q ih => simp only [handoff]; (repeat' split) <;> simp [ih]
@[simp] theorem handoff_chan (s : S) (m : Nat) (q : List Node) : (handoff s m q).chan = s.chan := by
  induction q generalizing s with
  | nil => rfl
  | cons n q ih => simp only [handoff]; (repeat' split) <;> simp [ih]
@[simp] theorem handoff_nchan (s : S) (m : Nat) (q : List Node) : (handoff s m q).nchan = s.nchan := by
  induction q generalizing s with
  | nil => rfl
  | cons n q ih => simp only [handoff]; (repeat' split) <;> simp [ih]
@[simp] theorem handoff_wg (s : S) (m : Nat) (q : List Node) : (handoff s m q).wg = s.wg := by
  induction q generalizing s with
  | nil => rfl
  | cons n q ih => simp only [handoff]; (repeat' split) <;> simp [ih]
@[simp] theorem handoff_all (s : S) (m : Nat) (q : List Node) : (handoff s m q).all = s.all := by
  induction q generalizing s with
  | nil => rfl
  | cons n q ih => simp only [handoff]; (repeat' split) <;> simp [ih]
@[simp] theorem handoff_allCount (s : S) (m : Nat) (q : List Node) : (handoff s m q).allCount = s.allCount := by
  induction q generalizing s with
  | nil => rfl
  | cons n q ih => simp only [handoff]; (repeat' split) <;> simp [ih]
@[simp] theorem handoff_dlq (s : S) (m : Nat) (q : List Node) : (handoff s m q).dlq = s.dlq := by
  induction q generalizing s with
  | nil => rfl
  | cons n q ih => simp only [handoff]; (repeat' split) <;> simp [ih]
@[simp] theorem handoff_evw (s : S) (m : Nat) (q : List Node) : (handoff s m q).evw = s.evw := by
  induction q generalizing s with
  | nil => rfl
  | cons n q ih => simp only [handoff]; (repeat' split) <;> simp [ih]
@[simp] theorem handoff_armed (s : S) (m : Nat) (q : List Node) : (handoff s m q).armed = s.armed := by
  induction q generalizing s with
  | nil => rfl
  | cons n q ih => simp only [handoff]; (repeat' split) <;> simp [ih]
@[simp] theorem handoff_nsleepers (s : S) (m : Nat) (q : List Node) : (handoff s m q).nsleepers = s.nsleepers := by
  induction q generalizing s with
  | nil => rfl
  | cons n q ih => simp only [handoff]; (repeat' split) <;> simp [ih]
@[simp] theorem handoff_nlocked (s : S) (m : Nat) (q : List Node) : (handoff s m q).nlocked = s.nlocked := by
  induction q generalizing s with
  | nil => rfl
  | cons n q ih => simp only [handoff]; (repeat' split) <;> simp [ih]
@[simp] theorem handoff_nreceivers (s : S) (m : Nat) (q : List Node) : (handoff s m q).nreceivers = s.nreceivers := by
  induction q generalizing s with
  | nil => rfl
  | cons n q ih => simp only [handoff]; (repeat' split) <;> simp [ih]
@[simp] theorem handoff_nsenders (s : S) (m : Nat) (q : List Node) : (handoff s m q).nsenders = s.nsenders := by
  induction q generalizing s with
  | nil => rfl
  | cons n q ih => simp only [handoff]; (repeat' split) <;> simp [ih]
@[simp] theorem handoff_nwaitgroupers (s : S) (m : Nat) (q : List Node) : (handoff s m q).nwaitgroupers = s.nwaitgroupers := by
  induction q generalizing s with
  | nil => rfl
  | cons n q ih => simp only [handoff]; (repeat' split) <;> simp [ih]
@[simp] theorem handoff_ncondwaiters (s : S) (m : Nat) (q : List Node) : (handoff s m q).ncondwaiters = s.ncondwaiters := by
  induction q generalizing s with
  | nil => rfl
  | cons n q ih => simp only [handoff]; (repeat' split) <;> simp [ih]
@[simp] theorem handoff_nsuspended (s : S) (m : Nat) (q : List Node) : (handoff s m q).nsuspended = s.nsuspended := by
  induction q generalizing s with
  | nil => rfl
  | cons n q ih => simp only [handoff]; (repeat' split) <;> simp [ih]
@[simp] theorem handoff_nevwaiters (s : S) (m : Nat) (q : List Node) : (handoff s m q).nevwaiters = s.nevwaiters := by
  induction q generalizing s with
  | nil => rfl
  | cons n q ih => simp only [handoff]; (repeat' split) <;> simp [ih]
@[simp] theorem handoff_nsigwaiters (s : S) (m : Nat) (q : List Node) : (handoff s m q).nsigwaiters = s.nsigwaiters := by
  induction q generalizing s with
  | nil => rfl
  | cons n q ih => simp only [handoff]; (repeat' split) <;> simp [ih]
@[simp] theorem handoff_niowaiters (s : S) (m : Nat) (q : List Node) : (handoff s m q).niowaiters = s.niowaiters := by
  induction q generalizing s with
  | nil => rfl
  | cons n q ih => simp only [handoff]; (repeat' split) <;> simp [ih]
@[simp] theorem handoff_pool (s : S) (m : Nat) (q : List Node) : (handoff s m q).pool = s.pool := by
  induction q generalizing s with
  | nil => rfl
  | cons n q ih => simp only [handoff]; (repeat' split) <;> simp [ih]
@[simp] theorem handoff_sigqueue (s : S) (m : Nat) (q : List Node) : (handoff s m q).sigqueue = s.sigqueue := by
  induction q generalizing s with
  | nil => rfl
  | cons n q ih => simp only [handoff]; (repeat' split) <;> simp [ih]
@[simp] theorem handoff_sigwatchers (s : S) (m : Nat) (q : List Node) : (handoff s m q).sigwatchers = s.sigwatchers := by
  induction q generalizing s with
  | nil => rfl
  | cons n q ih => simp only [handoff]; (repeat' split) <;> simp [ih]
@[simp] theorem handoff_jobs (s : S) (m : Nat) (q : List Node) : (handoff s m q).jobs = s.jobs := by
  induction q generalizing s with
  | nil => rfl
  | cons n q ih => simp only [handoff]; (repeat' split) <;> simp [ih]
@[simp] theorem handoff_clock (s : S) (m : Nat) (q : List Node) : (handoff s m q).clock = s.clock := by
  induction q generalizing s with
  | nil => rfl
  | cons n q ih => simp only [handoff]; (repeat' split) <;> simp [ih]
@[simp] theorem handoff_main (s : S) (m : Nat) (q : List Node) : (handoff s m q).main = s.main := by
  induction q generalizing s with
  | nil => rfl
  | cons n q ih => simp only [handoff]; (repeat' split) <;> simp [ih]
@[simp] theorem handoff_envAsync (s : S) (m : Nat) (q : List Node) : (handoff s m q).envAsync = s.envAsync := by
  induction q generalizing s with
  | nil => rfl
  | cons n q ih => simp only [handoff]; (repeat' split) <;> simp [ih]
@[simp] theorem handoff_envEnabled (s : S) (m : Nat) (q : List Node) : (handoff s m q).envEnabled = s.envEnabled := by
  induction q generalizing s with
  | nil => rfl
  | cons n q ih => simp only [handoff]; (repeat' split) <;> simp [ih]
@[simp] theorem handoff_dead (s : S) (m : Nat) (q : List Node) : (handoff s m q).dead = s.dead := by
  induction q generalizing s with
  | nil => rfl
  | cons n q ih => simp only [handoff]; (repeat' split) <;> simp [ih]
@[simp] theorem handoff_fault (s : S) (m : Nat) (q : List Node) : (handoff s m q).fault = s.fault := by
  induction q generalizing s with
  | nil => rfl
  | cons n q ih => simp only [handoff]; (repeat' split) <;> simp [ih]
@[simp] theorem fastUnlock_sco (s : S) (m : Nat) : (fastUnlock s m).sco = s.sco := by unfold fastUnlock; dsimp only; (repeat' split) <;> simp
@[simp] theorem fastUnlock_co (s : S) (m : Nat) : (fastUnlock s m).co = s.co := by unfold fastUnlock; dsimp only; (repeat' split) <;> simp
@[simp] theorem fastUnlock_chan (s : S) (m : Nat) : (fastUnlock s m).chan = s.chan := by unfold fastUnlock; dsimp only; (repeat' split) <;> simp
@[simp] theorem fastUnlock_nchan (s : S) (m : Nat) : (fastUnlock s m).nchan = s.nchan := by unfold fastUnlock; dsimp only; (repeat' split) <;> simp
@[simp] theorem fastUnlock_wg (s : S) (m : Nat) : (fastUnlock s m).wg = s.wg := by unfold fastUnlock; dsimp only; (repeat' split) <;> simp
@[simp] theorem fastUnlock_all (s : S) (m : Nat) : (fastUnlock s m).all = s.all := by unfold fastUnlock; dsimp only; (repeat' split) <;> simp
@[simp] theorem fastUnlock_allCount (s : S) (m : Nat) : (fastUnlock s m).allCount = s.allCount := by unfold fastUnlock; dsimp only; (repeat' split) <;> simp
@[simp] theorem fastUnlock_dlq (s : S) (m : Nat) : (fastUnlock s m).dlq = s.dlq := by unfold fastUnlock; dsimp only; (repeat' split) <;> simp
@[simp] theorem fastUnlock_evw (s : S) (m : Nat) : (fastUnlock s m).evw = s.evw := by unfold fastUnlock; dsimp only; (repeat' split) <;> simp
@[simp] theorem fastUnlock_armed (s : S) (m : Nat) : (fastUnlock s m).armed = s.armed := by unfold fastUnlock; dsimp only; (repeat' split) <;> simp
@[simp] theorem fastUnlock_nsleepers (s : S) (m : Nat) : (fastUnlock s m).nsleepers = s.nsleepers := by unfold fastUnlock; dsimp only; (repeat' split) <;> simp
@[simp] theorem fastUnlock_nlocked (s : S) (m : Nat) : (fastUnlock s m).nlocked = s.nlocked := by unfold fastUnlock; dsimp only; (repeat' split) <;> simp
@[simp] theorem fastUnlock_nreceivers (s : S) (m : Nat) : (fastUnlock s m).nreceivers = s.nreceivers := by unfold fastUnlock; dsimp only; (repeat' split) <;> simp
@[simp] theorem fastUnlock_nsenders (s : S) (m : Nat) : (fastUnlock s m).nsenders = s.nsenders := by unfold fastUnlock; dsimp only; (repeat' split) <;> simp
@[simp] theorem fastUnlock_nwaitgroupers (s : S) (m : Nat) : (fastUnlock s m).nwaitgroupers = s.nwaitgroupers := by unfold fastUnlock; dsimp only; (repeat' split) <;> simp
@[simp] theorem fastUnlock_ncondwaiters (s : S) (m : Nat) : (fastUnlock s m).ncondwaiters = s.ncondwaiters := by unfold fastUnlock; dsimp only; (repeat' split) <;> simp
@[simp] theorem fastUnlock_nsuspended (s : S) (m : Nat) : (fastUnlock s m).nsuspended = s.nsuspended := by unfold fastUnlock; dsimp only; (repeat' split) <;> simp
@[simp] theorem fastUnlock_nevwaiters (s : S) (m : Nat) : (fastUnlock s m).nevwaiters = s.nevwaiters := by unfold fastUnlock; dsimp only; (repeat' split) <;> simp
@[simp] theorem fastUnlock_nsigwaiters (s : S) (m : Nat) : (fastUnlock s m).nsigwaiters = s.nsigwaiters := by unfold fastUnlock; dsimp only; (repeat' split) <;> simp
@[simp] theorem fastUnlock_niowaiters (s : S) (m : Nat) : (fastUnlock s m).niowaiters = s.niowaiters := by unfold fastUnlock; dsimp only; (repeat' split) <;> simp
@[simp] theorem fastUnlock_pool (s : S) (m : Nat) : (fastUnlock s m).pool = s.pool := by unfold fastUnlock; dsimp only; (repeat' split) <;> simp
@[simp] theorem fastUnlock_sigqueue (s : S) (m : Nat) : (fastUnlock s m).sigqueue = s.sigqueue := by unfold fastUnlock; dsimp only; (repeat' split) <;> simp
@[simp] theorem fastUnlock_sigwatchers (s : S) (m : Nat) : (fastUnlock s m).sigwatchers = s.sigwatchers := by unfold fastUnlock; dsimp only; (repeat' split) <;> simp
@[simp] theorem fastUnlock_jobs (s : S) (m : Nat) : (fastUnlock s m).jobs = s.jobs := by unfold fastUnlock; dsimp only; (repeat' split) <;> simp
@[simp] theorem fastUnlock_clock (s : S) (m : Nat) : (fastUnlock s m).clock = s.clock := by unfold fastUnlock; dsimp only; (repeat' split) <;> simp
@[simp] theorem fastUnlock_main (s : S) (m : Nat) : (fastUnlock s m).main = s.main := by unfold fastUnlock; dsimp only; (repeat' split) <;> simp
@[simp] theorem fastUnlock_envAsync (s : S) (m : Nat) : (fastUnlock s m).envAsync = s.envAsync := by unfold fastUnlock; dsimp only; (repeat' split) <;> simp
@[simp] theorem fastUnlock_envEnabled (s : S) (m : Nat) : (fastUnlock s m).envEnabled = s.envEnabled := by unfold fastUnlock; dsimp only; (repeat' split) <;> simp
@[simp] theorem fastUnlock_dead (s : S) (m : Nat) : (fastUnlock s m).dead = s.dead := by unfold fastUnlock; dsimp only; (repeat' split) <;> simp
@[simp] theorem fastUnlock_fault (s : S) (m : Nat) : (fastUnlock s m).fault = s.fault := by unfold fastUnlock; dsimp only; (repeat' split) <;> simp
@[simp] theorem muUnlock_chan (s : S) (i m : Nat) : (muUnlock s i m).chan = s.chan := by unfold muUnlock; (try dsimp only); (repeat' split) <;> simp
@[simp] theorem muUnlock_nchan (s : S) (i m : Nat) : (muUnlock s i m).nchan = s.nchan := by unfold muUnlock; (try dsimp only); (repeat' split) <;> simp
@[simp] theorem muUnlock_wg (s : S) (i m : Nat) : (muUnlock s i m).wg = s.wg := by unfold muUnlock; (try dsimp only); (repeat' split) <;> simp
@[simp] theorem muUnlock_all (s : S) (i m : Nat) : (muUnlock s i m).all = s.all := by unfold muUnlock; (try dsimp only); (repeat' split) <;> simp
@[simp] theorem muUnlock_allCount (s : S) (i m : Nat) : (muUnlock s i m).allCount = s.allCount := by unfold muUnlock; (try dsimp only); (repeat' split) <;> simp
@[simp] theorem muUnlock_dlq (s : S) (i m : Nat) : (muUnlock s i m).dlq = s.dlq := by unfold muUnlock; (try dsimp only); (repeat' split) <;> simp
@[simp] theorem muUnlock_evw (s : S) (i m : Nat) : (muUnlock s i m).evw = s.evw := by unfold muUnlock; (try dsimp only); (repeat' split) <;> simp
@[simp] theorem muUnlock_armed (s : S) (i m : Nat) : (muUnlock s i m).armed = s.armed := by unfold muUnlock; (try dsimp only); (repeat' split) <;> simp
@[simp] theorem muUnlock_nsleepers (s : S) (i m : Nat) : (muUnlock s i m).nsleepers = s.nsleepers := by unfold muUnlock; (try dsimp only); (repeat' split) <;> simp
@[simp] theorem muUnlock_nlocked (s : S) (i m : Nat) : (muUnlock s i m).nlocked = s.nlocked := by unfold muUnlock; (try dsimp only); (repeat' split) <;> simp
@[simp] theorem muUnlock_nreceivers (s : S) (i m : Nat) : (muUnlock s i m).nreceivers = s.nreceivers := by unfold muUnlock; (try dsimp only); (repeat' split) <;> simp
@[simp] theorem muUnlock_nsenders (s : S) (i m : Nat) : (muUnlock s i m).nsenders = s.nsenders := by unfold muUnlock; (try dsimp only); (repeat' split) <;> simp
@[simp] theorem muUnlock_nwaitgroupers (s : S) (i m : Nat) : (muUnlock s i m).nwaitgroupers = s.nwaitgroupers := by unfold muUnlock; (try dsimp only); (repeat' split) <;> simp
@[simp] theorem muUnlock_ncondwaiters (s : S) (i m : Nat) : (muUnlock s i m).ncondwaiters = s.ncondwaiters := by unfold muUnlock; (try dsimp only); (repeat' split) <;> simp
@[simp] theorem muUnlock_nsuspended (s : S) (i m : Nat) : (muUnlock s i m).nsuspended = s.nsuspended := by unfold muUnlock; (try dsimp only); (repeat' split) <;> simp
@[simp] theorem muUnlock_nevwaiters (s : S) (i m : Nat) : (muUnlock s i m).nevwaiters = s.nevwaiters := by unfold muUnlock; (try dsimp only); (repeat' split) <;> simp
@[simp] theorem muUnlock_nsigwaiters (s : S) (i m : Nat) : (muUnlock s i m).nsigwaiters = s.nsigwaiters := by unfold muUnlock; (try dsimp only); (repeat' split) <;> simp
@[simp] theorem muUnlock_niowaiters (s : S) (i m : Nat) : (muUnlock s i m).niowaiters = s.niowaiters := by unfold muUnlock; (try dsimp only); (repeat' split) <;> simp
@[simp] theorem muUnlock_pool (s : S) (i m : Nat) : (muUnlock s i m).pool = s.pool := by unfold muUnlock; (try dsimp only); (repeat' split) <;> simp
@[simp] theorem muUnlock_sigqueue (s : S) (i m : Nat) : (muUnlock s i m).sigqueue = s.sigqueue := by unfold muUnlock; (try dsimp only); (repeat' split) <;> simp
@[simp] theorem muUnlock_sigwatchers (s : S) (i m : Nat) : (muUnlock s i m).sigwatchers = s.sigwatchers := by unfold muUnlock; (try dsimp only); (repeat' split) <;> simp
@[simp] theorem muUnlock_jobs (s : S) (i m : Nat) : (muUnlock s i m).jobs = s.jobs := by unfold muUnlock; (try dsimp only); (repeat' split) <;> simp
@[simp] theorem muUnlock_clock (s : S) (i m : Nat) : (muUnlock s i m).clock = s.clock := by unfold muUnlock; (try dsimp only); (repeat' split) <;> simp
@[simp] theorem muUnlock_main (s : S) (i m : Nat) : (muUnlock s i m).main = s.main := by unfold muUnlock; (try dsimp only); (repeat' split) <;> simp
@[simp] theorem muUnlock_envAsync (s : S) (i m : Nat) : (muUnlock s i m).envAsync = s.envAsync := by unfold muUnlock; (try dsimp only); (repeat' split) <;> simp
@[simp] theorem muUnlock_envEnabled (s : S) (i m : Nat) : (muUnlock s i m).envEnabled = s.envEnabled := by unfold muUnlock; (try dsimp only); (repeat' split) <;> simp
@[simp] theorem muUnlock_dead (s : S) (i m : Nat) : (muUnlock s i m).dead = s.dead := by unfold muUnlock; (try dsimp only); (repeat' split) <;> simp
@[simp] theorem muUnlock_fault (s : S) (i m : Nat) : (muUnlock s i m).fault = s.fault := by unfold muUnlock; (try dsimp only); (repeat' split) <;> simp
@[simp] theorem setWg_sco (s : S) (w : Nat) (x : Int) : (setWg s w x).sco = s.sco := rfl
@[simp] theorem setWg_co (s : S) (w : Nat) (x : Int) : (setWg s w x).co = s.co := rfl
@[simp] theorem setWg_lists (s : S) (w : Nat) (x : Int) : (setWg s w x).lists = s.lists := rfl
@[simp] theorem setWg_chan (s : S) (w : Nat) (x : Int) : (setWg s w x).chan = s.chan := rfl
@[simp] theorem setWg_nchan (s : S) (w : Nat) (x : Int) : (setWg s w x).nchan = s.nchan := rfl
@[simp] theorem setWg_mu (s : S) (w : Nat) (x : Int) : (setWg s w x).mu = s.mu := rfl
@[simp] theorem setWg_all (s : S) (w : Nat) (x : Int) : (setWg s w x).all = s.all := rfl
@[simp] theorem setWg_allCount (s : S) (w : Nat) (x : Int) : (setWg s w x).allCount = s.allCount := rfl
@[simp] theorem setWg_dlq (s : S) (w : Nat) (x : Int) : (setWg s w x).dlq = s.dlq := rfl
@[simp] theorem setWg_evw (s : S) (w : Nat) (x : Int) : (setWg s w x).evw = s.evw := rfl
@[simp] theorem setWg_armed (s : S) (w : Nat) (x : Int) : (setWg s w x).armed = s.armed := rfl
@[simp] theorem setWg_nsleepers (s : S) (w : Nat) (x : Int) : (setWg s w x).nsleepers = s.nsleepers := rfl
@[simp] theorem setWg_nlocked (s : S) (w : Nat) (x : Int) : (setWg s w x).nlocked = s.nlocked := rfl
@[simp] theorem setWg_nreceivers (s : S) (w : Nat) (x : Int) : (setWg s w x).nreceivers = s.nreceivers := rfl
@[simp] theorem setWg_nsenders (s : S) (w : Nat) (x : Int) : (setWg s w x).nsenders = s.nsenders := rfl
@[simp] theorem setWg_nwaitgroupers (s : S) (w : Nat) (x : Int) : (setWg s w x).nwaitgroupers = s.nwaitgroupers := rfl
@[simp] theorem setWg_ncondwaiters (s : S) (w : Nat) (x : Int) : (setWg s w x).ncondwaiters = s.ncondwaiters := rfl
@[simp] theorem setWg_nsuspended (s : S) (w : Nat) (x : Int) : (setWg s w x).nsuspended = s.nsuspended := rfl
@[simp] theorem setWg_nevwaiters (s : S) (w : Nat) (x : Int) : (setWg s w x).nevwaiters = s.nevwaiters := rfl
@[simp] theorem setWg_nsigwaiters (s : S) (w : Nat) (x : Int) : (setWg s w x).nsigwaiters = s.nsigwaiters := rfl
@[simp] theorem setWg_nresumers (s : S) (w : Nat) (x : Int) : (setWg s w x).nresumers = s.nresumers := rfl
@[simp] theorem setWg_niowaiters (s : S) (w : Nat) (x : Int) : (setWg s w x).niowaiters = s.niowaiters := rfl
@[simp] theorem setWg_pool (s : S) (w : Nat) (x : Int) : (setWg s w x).pool = s.pool := rfl
@[simp] theorem setWg_sigqueue (s : S) (w : Nat) (x : Int) : (setWg s w x).sigqueue = s.sigqueue := rfl
@[simp] theorem setWg_sigwatchers (s : S) (w : Nat) (x : Int) : (setWg s w x).sigwatchers = s.sigwatchers := rfl
@[simp] theorem setWg_jobs (s : S) (w : Nat) (x : Int) : (setWg s w x).jobs = s.jobs := rfl
@[simp] theorem setWg_clock (s : S) (w : Nat) (x : Int) : (setWg s w x).clock = s.clock := rfl
@[simp] theorem setWg_main (s : S) (w : Nat) (x : Int) : (setWg s w x).main = s.main := rfl
@[simp] theorem setWg_envAsync (s : S) (w : Nat) (x : Int) : (setWg s w x).envAsync = s.envAsync := rfl
@[simp] theorem setWg_envEnabled (s : S) (w : Nat) (x : Int) : (setWg s w x).envEnabled = s.envEnabled := rfl
@[simp] theorem setWg_dead (s : S) (w : Nat) (x : Int) : (setWg s w x).dead = s.dead := rfl
@[simp] theorem setWg_fault (s : S) (w : Nat) (x : Int) : (setWg s w x).fault = s.fault := rfl
@[simp] theorem setWg_log (s : S) (w : Nat) (x : Int) : (setWg s w x).log = s.log := rfl
@[simp] theorem wgAdd_sco (s : S) (i w : Nat) (d : Int) : (wgAdd s i w d).sco = s.sco := by unfold wgAdd; dsimp only; (repeat' split) <;> simp
@[simp] theorem wgAdd_lists (s : S) (i w : Nat) (d : Int) : (wgAdd s i w d).lists = s.lists := by unfold wgAdd; dsimp only; (repeat' split) <;> simp
@[simp] theorem wgAdd_chan (s : S) (i w : Nat) (d : Int) : (wgAdd s i w d).chan = s.chan := by unfold wgAdd; dsimp only; (repeat' split) <;> simp
@[simp] theorem wgAdd_nchan (s : S) (i w : Nat) (d : Int) : (wgAdd s i w d).nchan = s.nchan := by unfold wgAdd; dsimp only; (repeat' split) <;> simp
@[simp] theorem wgAdd_mu (s : S) (i w : Nat) (d : Int) : (wgAdd s i w d).mu = s.mu := by unfold wgAdd; dsimp only; (repeat' split) <;> simp
@[simp] theorem wgAdd_all (s : S) (i w : Nat) (d : Int) : (wgAdd s i w d).all = s.all := by unfold wgAdd; dsimp only; (repeat' split) <;> simp
@[simp] theorem wgAdd_allCount (s : S) (i w : Nat) (d : Int) : (wgAdd s i w d).allCount = s.allCount := by unfold wgAdd; dsimp only; (repeat' split) <;> simp
@[simp] theorem wgAdd_dlq (s : S) (i w : Nat) (d : Int) : (wgAdd s i w d).dlq = s.dlq := by unfold wgAdd; dsimp only; (repeat' split) <;> simp
@[simp] theorem wgAdd_evw (s : S) (i w : Nat) (d : Int) : (wgAdd s i w d).evw = s.evw := by unfold wgAdd; dsimp only; (repeat' split) <;> simp
@[simp] theorem wgAdd_armed (s : S) (i w : Nat) (d : Int) : (wgAdd s i w d).armed = s.armed := by unfold wgAdd; dsimp only; (repeat' split) <;> simp
@[simp] theorem wgAdd_nsleepers (s : S) (i w : Nat) (d : Int) : (wgAdd s i w d).nsleepers = s.nsleepers := by unfold wgAdd; dsimp only; (repeat' split) <;> simp
@[simp] theorem wgAdd_nlocked (s : S) (i w : Nat) (d : Int) : (wgAdd s i w d).nlocked = s.nlocked := by unfold wgAdd; dsimp only; (repeat' split) <;> simp
@[simp] theorem wgAdd_nreceivers (s : S) (i w : Nat) (d : Int) : (wgAdd s i w d).nreceivers = s.nreceivers := by unfold wgAdd; dsimp only; (repeat' split) <;> simp
@[simp] theorem wgAdd_nsenders (s : S) (i w : Nat) (d : Int) : (wgAdd s i w d).nsenders = s.nsenders := by unfold wgAdd; dsimp only; (repeat' split) <;> simp
@[simp] theorem wgAdd_nwaitgroupers (s : S) (i w : Nat) (d : Int) : (wgAdd s i w d).nwaitgroupers = s.nwaitgroupers := by unfold wgAdd; dsimp only; (repeat' split) <;> simp
@[simp] theorem wgAdd_ncondwaiters (s : S) (i w : Nat) (d : Int) : (wgAdd s i w d).ncondwaiters = s.ncondwaiters := by unfold wgAdd; dsimp only; (repeat' split) <;> simp
@[simp] theorem wgAdd_nsuspended (s : S) (i w : Nat) (d : Int) : (wgAdd s i w d).nsuspended = s.nsuspended := by unfold wgAdd; dsimp only; (repeat' split) <;> simp
@[simp] theorem wgAdd_nevwaiters (s : S) (i w : Nat) (d : Int) : (wgAdd s i w d).nevwaiters = s.nevwaiters := by unfold wgAdd; dsimp only; (repeat' split) <;> simp
@[simp] theorem wgAdd_nsigwaiters (s : S) (i w : Nat) (d : Int) : (wgAdd s i w d).nsigwaiters = s.nsigwaiters := by unfold wgAdd; dsimp only; (repeat' split) <;> simp
@[simp] theorem wgAdd_nresumers (s : S) (i w : Nat) (d : Int) : (wgAdd s i w d).nresumers = s.nresumers := by unfold wgAdd; dsimp only; (repeat' split) <;> simp
@[simp] theorem wgAdd_niowaiters (s : S) (i w : Nat) (d : Int) : (wgAdd s i w d).niowaiters = s.niowaiters := by unfold wgAdd; dsimp only; (repeat' split) <;> simp
@[simp] theorem wgAdd_pool (s : S) (i w : Nat) (d : Int) : (wgAdd s i w d).pool = s.pool := by unfold wgAdd; dsimp only; (repeat' split) <;> simp
@[simp] theorem wgAdd_sigqueue (s : S) (i w : Nat) (d : Int) : (wgAdd s i w d).sigqueue = s.sigqueue := by unfold wgAdd; dsimp only; (repeat' split) <;> simp
@[simp] theorem wgAdd_sigwatchers (s : S) (i w : Nat) (d : Int) : (wgAdd s i w d).sigwatchers = s.sigwatchers := by unfold wgAdd; dsimp only; (repeat' split) <;> simp
@[simp] theorem wgAdd_jobs (s : S) (i w : Nat) (d : Int) : (wgAdd s i w d).jobs = s.jobs := by unfold wgAdd; dsimp only; (repeat' split) <;> simp
@[simp] theorem wgAdd_clock (s : S) (i w : Nat) (d : Int) : (wgAdd s i w d).clock = s.clock := by unfold wgAdd; dsimp only; (repeat' split) <;> simp
@[simp] theorem wgAdd_main (s : S) (i w : Nat) (d : Int) : (wgAdd s i w d).main = s.main := by unfold wgAdd; dsimp only; (repeat' split) <;> simp
@[simp] theorem wgAdd_envAsync (s : S) (i w : Nat) (d : Int) : (wgAdd s i w d).envAsync = s.envAsync := by unfold wgAdd; dsimp only; (repeat' split) <;> simp
@[simp] theorem wgAdd_envEnabled (s : S) (i w : Nat) (d : Int) : (wgAdd s i w d).envEnabled = s.envEnabled := by unfold wgAdd; dsimp only; (repeat' split) <;> simp
@[simp] theorem wgAdd_dead (s : S) (i w : Nat) (d : Int) : (wgAdd s i w d).dead = s.dead := by unfold wgAdd; dsimp only; (repeat' split) <;> simp
@[simp] theorem wgAdd_log (s : S) (i w : Nat) (d : Int) : (wgAdd s i w d).log = s.log := by unfold wgAdd; dsimp only; (repeat' split) <;> simp
@[simp] theorem wgDone_chan (s : S) (i w : Nat) : (wgDone s i w).chan = s.chan := by unfold wgDone; dsimp only; (repeat' split) <;> simp
@[simp] theorem wgDone_nchan (s : S) (i w : Nat) : (wgDone s i w).nchan = s.nchan := by unfold wgDone; dsimp only; (repeat' split) <;> simp
@[simp] theorem wgDone_mu (s : S) (i w : Nat) : (wgDone s i w).mu = s.mu := by unfold wgDone; dsimp only; (repeat' split) <;> simp
@[simp] theorem wgDone_all (s : S) (i w : Nat) : (wgDone s i w).all = s.all := by unfold wgDone; dsimp only; (repeat' split) <;> simp
@[simp] theorem wgDone_allCount (s : S) (i w : Nat) : (wgDone s i w).allCount = s.allCount := by unfold wgDone; dsimp only; (repeat' split) <;> simp
@[simp] theorem wgDone_dlq (s : S) (i w : Nat) : (wgDone s i w).dlq = s.dlq := by unfold wgDone; dsimp only; (repeat' split) <;> simp
@[simp] theorem wgDone_evw (s : S) (i w : Nat) : (wgDone s i w).evw = s.evw := by unfold wgDone; dsimp only; (repeat' split) <;> simp
@[simp] theorem wgDone_armed (s : S) (i w : Nat) : (wgDone s i w).armed = s.armed := by unfold wgDone; dsimp only; (repeat' split) <;> simp
@[simp] theorem wgDone_nsleepers (s : S) (i w : Nat) : (wgDone s i w).nsleepers = s.nsleepers := by unfold wgDone; dsimp only; (repeat' split) <;> simp
@[simp] theorem wgDone_nlocked (s : S) (i w : Nat) : (wgDone s i w).nlocked = s.nlocked := by unfold wgDone; dsimp only; (repeat' split) <;> simp
@[simp] theorem wgDone_nreceivers (s : S) (i w : Nat) : (wgDone s i w).nreceivers = s.nreceivers := by unfold wgDone; dsimp only; (repeat' split) <;> simp
@[simp] theorem wgDone_nsenders (s : S) (i w : Nat) : (wgDone s i w).nsenders = s.nsenders := by unfold wgDone; dsimp only; (repeat' split) <;> simp
@[simp] theorem wgDone_nwaitgroupers (s : S) (i w : Nat) : (wgDone s i w).nwaitgroupers = s.nwaitgroupers := by unfold wgDone; dsimp only; (repeat' split) <;> simp
@[simp] theorem wgDone_ncondwaiters (s : S) (i w : Nat) : (wgDone s i w).ncondwaiters = s.ncondwaiters := by unfold wgDone; dsimp only; (repeat' split) <;> simp
@[simp] theorem wgDone_nsuspended (s : S) (i w : Nat) : (wgDone s i w).nsuspended = s.nsuspended := by unfold wgDone; dsimp only; (repeat' split) <;> simp
@[simp] theorem wgDone_nevwaiters (s : S) (i w : Nat) : (wgDone s i w).nevwaiters = s.nevwaiters := by unfold wgDone; dsimp only; (repeat' split) <;> simp
@[simp] theorem wgDone_nsigwaiters (s : S) (i w : Nat) : (wgDone s i w).nsigwaiters = s.nsigwaiters := by unfold wgDone; dsimp only; (repeat' split) <;> simp
@[simp] theorem wgDone_niowaiters (s : S) (i w : Nat) : (wgDone s i w).niowaiters = s.niowaiters := by unfold wgDone; dsimp only; (repeat' split) <;> simp
@[simp] theorem wgDone_pool (s : S) (i w : Nat) : (wgDone s i w).pool = s.pool := by unfold wgDone; dsimp only; (repeat' split) <;> simp
@[simp] theorem wgDone_sigqueue (s : S) (i w : Nat) : (wgDone s i w).sigqueue = s.sigqueue := by unfold wgDone; dsimp only; (repeat' split) <;> simp
@[simp] theorem wgDone_sigwatchers (s : S) (i w : Nat) : (wgDone s i w).sigwatchers = s.sigwatchers := by unfold wgDone; dsimp only; (repeat' split) <;> simp
@[simp] theorem wgDone_jobs (s : S) (i w : Nat) : (wgDone s i w).jobs = s.jobs := by unfold wgDone; dsimp only; (repeat' split) <;> simp
@[simp] theorem wgDone_clock (s : S) (i w : Nat) : (wgDone s i w).clock = s.clock := by unfold wgDone; dsimp only; (repeat' split) <;> simp
@[simp] theorem wgDone_main (s : S) (i w : Nat) : (wgDone s i w).main = s.main := by unfold wgDone; dsimp only; (repeat' split) <;> simp
@[simp] theorem wgDone_envAsync (s : S) (i w : Nat) : (wgDone s i w).envAsync = s.envAsync := by unfold wgDone; dsimp only; (repeat' split) <;> simp
@[simp] theorem wgDone_envEnabled (s : S) (i w : Nat) : (wgDone s i w).envEnabled = s.envEnabled := by unfold wgDone; dsimp only; (repeat' split) <;> simp
@[simp] theorem wgDone_dead (s : S) (i w : Nat) : (wgDone s i w).dead = s.dead := by unfold wgDone; dsimp only; (repeat' split) <;> simp
@[simp] theorem wgDone_fault (s : S) (i w : Nat) : (wgDone s i w).fault = s.fault := by unfold wgDone; dsimp only; (repeat' split) <;> simp
@[simp] theorem wgWait_chan (s : S) (i w : Nat) (dl : Int) : (wgWait s i w dl).chan = s.chan := by unfold wgWait; (try dsimp only); (repeat' split) <;> simp
@[simp] theorem wgWait_nchan (s : S) (i w : Nat) (dl : Int) : (wgWait s i w dl).nchan = s.nchan := by unfold wgWait; (try dsimp only); (repeat' split) <;> simp
@[simp] theorem wgWait_mu (s : S) (i w : Nat) (dl : Int) : (wgWait s i w dl).mu = s.mu := by unfold wgWait; (try dsimp only); (repeat' split) <;> simp
@[simp] theorem wgWait_wg (s : S) (i w : Nat) (dl : Int) : (wgWait s i w dl).wg = s.wg := by unfold wgWait; (try dsimp only); (repeat' split) <;> simp
@[simp] theorem wgWait_all (s : S) (i w : Nat) (dl : Int) : (wgWait s i w dl).all = s.all := by unfold wgWait; (try dsimp only); (repeat' split) <;> simp
@[simp] theorem wgWait_allCount (s : S) (i w : Nat) (dl : Int) : (wgWait s i w dl).allCount = s.allCount := by unfold wgWait; (try dsimp only); (repeat' split) <;> simp
@[simp] theorem wgWait_evw (s : S) (i w : Nat) (dl : Int) : (wgWait s i w dl).evw = s.evw := by unfold wgWait; (try dsimp only); (repeat' split) <;> simp
@[simp] theorem wgWait_armed (s : S) (i w : Nat) (dl : Int) : (wgWait s i w dl).armed = s.armed := by unfold wgWait; (try dsimp only); (repeat' split) <;> simp
@[simp] theorem wgWait_nsleepers (s : S) (i w : Nat) (dl : Int) : (wgWait s i w dl).nsleepers = s.nsleepers := by unfold wgWait; (try dsimp only); (repeat' split) <;> simp
@[simp] theorem wgWait_nlocked (s : S) (i w : Nat) (dl : Int) : (wgWait s i w dl).nlocked = s.nlocked := by unfold wgWait; (try dsimp only); (repeat' split) <;> simp
@[simp] theorem wgWait_nreceivers (s : S) (i w : Nat) (dl : Int) : (wgWait s i w dl).nreceivers = s.nreceivers := by unfold wgWait; (try dsimp only); (repeat' split) <;> simp
@[simp] theorem wgWait_nsenders (s : S) (i w : Nat) (dl : Int) : (wgWait s i w dl).nsenders = s.nsenders := by unfold wgWait; (try dsimp only); (repeat' split) <;> simp
@[simp] theorem wgWait_ncondwaiters (s : S) (i w : Nat) (dl : Int) : (wgWait s i w dl).ncondwaiters = s.ncondwaiters := by unfold wgWait; (try dsimp only); (repeat' split) <;> simp
@[simp] theorem wgWait_nsuspended (s : S) (i w : Nat) (dl : Int) : (wgWait s i w dl).nsuspended = s.nsuspended := by unfold wgWait; (try dsimp only); (repeat' split) <;> simp
@[simp] theorem wgWait_nevwaiters (s : S) (i w : Nat) (dl : Int) : (wgWait s i w dl).nevwaiters = s.nevwaiters := by unfold wgWait; (try dsimp only); (repeat' split) <;> simp
@[simp] theorem wgWait_nsigwaiters (s : S) (i w : Nat) (dl : Int) : (wgWait s i w dl).nsigwaiters = s.nsigwaiters := by unfold wgWait; (try dsimp only); (repeat' split) <;> simp
@[simp] theorem wgWait_nresumers (s : S) (i w : Nat) (dl : Int) : (wgWait s i w dl).nresumers = s.nresumers := by unfold wgWait; (try dsimp only); (repeat' split) <;> simp
@[simp] theorem wgWait_niowaiters (s : S) (i w : Nat) (dl : Int) : (wgWait s i w dl).niowaiters = s.niowaiters := by unfold wgWait; (try dsimp only); (repeat' split) <;> simp
@[simp] theorem wgWait_pool (s : S) (i w : Nat) (dl : Int) : (wgWait s i w dl).pool = s.pool := by unfold wgWait; (try dsimp only); (repeat' split) <;> simp
@[simp] theorem wgWait_sigqueue (s : S) (i w : Nat) (dl : Int) : (wgWait s i w dl).sigqueue = s.sigqueue := by unfold wgWait; (try dsimp only); (repeat' split) <;> simp
@[simp] theorem wgWait_sigwatchers (s : S) (i w : Nat) (dl : Int) : (wgWait s i w dl).sigwatchers = s.sigwatchers := by unfold wgWait; (try dsimp only); (repeat' split) <;> simp
@[simp] theorem wgWait_jobs (s : S) (i w : Nat) (dl : Int) : (wgWait s i w dl).jobs = s.jobs := by unfold wgWait; (try dsimp only); (repeat' split) <;> simp
@[simp] theorem wgWait_clock (s : S) (i w : Nat) (dl : Int) : (wgWait s i w dl).clock = s.clock := by unfold wgWait; (try dsimp only); (repeat' split) <;> simp
@[simp] theorem wgWait_main (s : S) (i w : Nat) (dl : Int) : (wgWait s i w dl).main = s.main := by unfold wgWait; (try dsimp only); (repeat' split) <;> simp
@[simp] theorem wgWait_envAsync (s : S) (i w : Nat) (dl : Int) : (wgWait s i w dl).envAsync = s.envAsync := by unfold wgWait; (try dsimp only); (repeat' split) <;> simp
@[simp] theorem wgWait_envEnabled (s : S) (i w : Nat) (dl : Int) : (wgWait s i w dl).envEnabled = s.envEnabled := by unfold wgWait; (try dsimp only); (repeat' split) <;> simp
@[simp] theorem wgWait_dead (s : S) (i w : Nat) (dl : Int) : (wgWait s i w dl).dead = s.dead := by unfold wgWait; (try dsimp only); (repeat' split) <;> simp
@[simp] theorem wgWait_fault (s : S) (i w : Nat) (dl : Int) : (wgWait s i w dl).fault = s.fault := by unfold wgWait; (try dsimp only); (repeat' split) <;> simp
@[simp] theorem cvSignal_chan (s : S) (i v : Nat) : (cvSignal s i v).chan = s.chan := by unfold cvSignal; (try dsimp only); (repeat' split) <;> simp
@[simp] theorem cvSignal_nchan (s : S) (i v : Nat) : (cvSignal s i v).nchan = s.nchan := by unfold cvSignal; (try dsimp only); (repeat' split) <;> simp
@[simp] theorem cvSignal_mu (s : S) (i v : Nat) : (cvSignal s i v).mu = s.mu := by unfold cvSignal; (try dsimp only); (repeat' split) <;> simp
@[simp] theorem cvSignal_wg (s : S) (i v : Nat) : (cvSignal s i v).wg = s.wg := by unfold cvSignal; (try dsimp only); (repeat' split) <;> simp
@[simp] theorem cvSignal_all (s : S) (i v : Nat) : (cvSignal s i v).all = s.all := by unfold cvSignal; (try dsimp only); (repeat' split) <;> simp
@[simp] theorem cvSignal_allCount (s : S) (i v : Nat) : (cvSignal s i v).allCount = s.allCount := by unfold cvSignal; (try dsimp only); (repeat' split) <;> simp
@[simp] theorem cvSignal_dlq (s : S) (i v : Nat) : (cvSignal s i v).dlq = s.dlq := by unfold cvSignal; (try dsimp only); (repeat' split) <;> simp
@[simp] theorem cvSignal_evw (s : S) (i v : Nat) : (cvSignal s i v).evw = s.evw := by unfold cvSignal; (try dsimp only); (repeat' split) <;> simp
@[simp] theorem cvSignal_armed (s : S) (i v : Nat) : (cvSignal s i v).armed = s.armed := by unfold cvSignal; (try dsimp only); (repeat' split) <;> simp
@[simp] theorem cvSignal_nsleepers (s : S) (i v : Nat) : (cvSignal s i v).nsleepers = s.nsleepers := by unfold cvSignal; (try dsimp only); (repeat' split) <;> simp
@[simp] theorem cvSignal_nlocked (s : S) (i v : Nat) : (cvSignal s i v).nlocked = s.nlocked := by unfold cvSignal; (try dsimp only); (repeat' split) <;> simp
@[simp] theorem cvSignal_nreceivers (s : S) (i v : Nat) : (cvSignal s i v).nreceivers = s.nreceivers := by unfold cvSignal; (try dsimp only); (repeat' split) <;> simp
@[simp] theorem cvSignal_nsenders (s : S) (i v : Nat) : (cvSignal s i v).nsenders = s.nsenders := by unfold cvSignal; (try dsimp only); (repeat' split) <;> simp
@[simp] theorem cvSignal_nwaitgroupers (s : S) (i v : Nat) : (cvSignal s i v).nwaitgroupers = s.nwaitgroupers := by unfold cvSignal; (try dsimp only); (repeat' split) <;> simp
@[simp] theorem cvSignal_ncondwaiters (s : S) (i v : Nat) : (cvSignal s i v).ncondwaiters = s.ncondwaiters := by unfold cvSignal; (try dsimp only); (repeat' split) <;> simp
@[simp] theorem cvSignal_nsuspended (s : S) (i v : Nat) : (cvSignal s i v).nsuspended = s.nsuspended := by unfold cvSignal; (try dsimp only); (repeat' split) <;> simp
@[simp] theorem cvSignal_nevwaiters (s : S) (i v : Nat) : (cvSignal s i v).nevwaiters = s.nevwaiters := by unfold cvSignal; (try dsimp only); (repeat' split) <;> simp
@[simp] theorem cvSignal_nsigwaiters (s : S) (i v : Nat) : (cvSignal s i v).nsigwaiters = s.nsigwaiters := by unfold cvSignal; (try dsimp only); (repeat' split) <;> simp
@[simp] theorem cvSignal_nresumers (s : S) (i v : Nat) : (cvSignal s i v).nresumers = s.nresumers := by unfold cvSignal; (try dsimp only); (repeat' split) <;> simp
@[simp] theorem cvSignal_niowaiters (s : S) (i v : Nat) : (cvSignal s i v).niowaiters = s.niowaiters := by unfold cvSignal; (try dsimp only); (repeat' split) <;> simp
@[simp] theorem cvSignal_pool (s : S) (i v : Nat) : (cvSignal s i v).pool = s.pool := by unfold cvSignal; (try dsimp only); (repeat' split) <;> simp
@[simp] theorem cvSignal_sigqueue (s : S) (i v : Nat) : (cvSignal s i v).sigqueue = s.sigqueue := by unfold cvSignal; (try dsimp only); (repeat' split) <;> simp
@[simp] theorem cvSignal_sigwatchers (s : S) (i v : Nat) : (cvSignal s i v).sigwatchers = s.sigwatchers := by unfold cvSignal; (try dsimp only); (repeat' split) <;> simp
@[simp] theorem cvSignal_jobs (s : S) (i v : Nat) : (cvSignal s i v).jobs = s.jobs := by unfold cvSignal; (try dsimp only); (repeat' split) <;> simp
@[simp] theorem cvSignal_clock (s : S) (i v : Nat) : (cvSignal s i v).clock = s.clock := by unfold cvSignal; (try dsimp only); (repeat' split) <;> simp
@[simp] theorem cvSignal_main (s : S) (i v : Nat) : (cvSignal s i v).main = s.main := by unfold cvSignal; (try dsimp only); (repeat' split) <;> simp
@[simp] theorem cvSignal_envAsync (s : S) (i v : Nat) : (cvSignal s i v).envAsync = s.envAsync := by unfold cvSignal; (try dsimp only); (repeat' split) <;> simp
@[simp] theorem cvSignal_envEnabled (s : S) (i v : Nat) : (cvSignal s i v).envEnabled = s.envEnabled := by unfold cvSignal; (try dsimp only); (repeat' split) <;> simp
@[simp] theorem cvSignal_dead (s : S) (i v : Nat) : (cvSignal s i v).dead = s.dead := by unfold cvSignal; (try dsimp only); (repeat' split) <;> simp
@[simp] theorem cvSignal_fault (s : S) (i v : Nat) : (cvSignal s i v).fault = s.fault := by unfold cvSignal; (try dsimp only); (repeat' split) <;> simp
@[simp] theorem cvBcast_chan (s : S) (i v : Nat) : (cvBcast s i v).chan = s.chan := by unfold cvBcast; simp
@[simp] theorem cvBcast_nchan (s : S) (i v : Nat) : (cvBcast s i v).nchan = s.nchan := by unfold cvBcast; simp
@[simp] theorem cvBcast_mu (s : S) (i v : Nat) : (cvBcast s i v).mu = s.mu := by unfold cvBcast; simp
@[simp] theorem cvBcast_wg (s : S) (i v : Nat) : (cvBcast s i v).wg = s.wg := by unfold cvBcast; simp
@[simp] theorem cvBcast_all (s : S) (i v : Nat) : (cvBcast s i v).all = s.all := by unfold cvBcast; simp
@[simp] theorem cvBcast_allCount (s : S) (i v : Nat) : (cvBcast s i v).allCount = s.allCount := by unfold cvBcast; simp
@[simp] theorem cvBcast_dlq (s : S) (i v : Nat) : (cvBcast s i v).dlq = s.dlq := by unfold cvBcast; simp
@[simp] theorem cvBcast_evw (s : S) (i v : Nat) : (cvBcast s i v).evw = s.evw := by unfold cvBcast; simp
@[simp] theorem cvBcast_armed (s : S) (i v : Nat) : (cvBcast s i v).armed = s.armed := by unfold cvBcast; simp
@[simp] theorem cvBcast_nsleepers (s : S) (i v : Nat) : (cvBcast s i v).nsleepers = s.nsleepers := by unfold cvBcast; simp
@[simp] theorem cvBcast_nlocked (s : S) (i v : Nat) : (cvBcast s i v).nlocked = s.nlocked := by unfold cvBcast; simp
@[simp] theorem cvBcast_nreceivers (s : S) (i v : Nat) : (cvBcast s i v).nreceivers = s.nreceivers := by unfold cvBcast; simp
@[simp] theorem cvBcast_nsenders (s : S) (i v : Nat) : (cvBcast s i v).nsenders = s.nsenders := by unfold cvBcast; simp
@[simp] theorem cvBcast_nwaitgroupers (s : S) (i v : Nat) : (cvBcast s i v).nwaitgroupers = s.nwaitgroupers := by unfold cvBcast; simp
@[simp] theorem cvBcast_ncondwaiters (s : S) (i v : Nat) : (cvBcast s i v).ncondwaiters = s.ncondwaiters := by unfold cvBcast; simp
@[simp] theorem cvBcast_nsuspended (s : S) (i v : Nat) : (cvBcast s i v).nsuspended = s.nsuspended := by unfold cvBcast; simp
@[simp] theorem cvBcast_nevwaiters (s : S) (i v : Nat) : (cvBcast s i v).nevwaiters = s.nevwaiters := by unfold cvBcast; simp
@[simp] theorem cvBcast_nsigwaiters (s : S) (i v : Nat) : (cvBcast s i v).nsigwaiters = s.nsigwaiters := by unfold cvBcast; simp
@[simp] theorem cvBcast_niowaiters (s : S) (i v : Nat) : (cvBcast s i v).niowaiters = s.niowaiters := by unfold cvBcast; simp
@[simp] theorem cvBcast_pool (s : S) (i v : Nat) : (cvBcast s i v).pool = s.pool := by unfold cvBcast; simp
@[simp] theorem cvBcast_sigqueue (s : S) (i v : Nat) : (cvBcast s i v).sigqueue = s.sigqueue := by unfold cvBcast; simp
@[simp] theorem cvBcast_sigwatchers (s : S) (i v : Nat) : (cvBcast s i v).sigwatchers = s.sigwatchers := by unfold cvBcast; simp
@[simp] theorem cvBcast_jobs (s : S) (i v : Nat) : (cvBcast s i v).jobs = s.jobs := by unfold cvBcast; simp
@[simp] theorem cvBcast_clock (s : S) (i v : Nat) : (cvBcast s i v).clock = s.clock := by unfold cvBcast; simp
@[simp] theorem cvBcast_main (s : S) (i v : Nat) : (cvBcast s i v).main = s.main := by unfold cvBcast; simp
@[simp] theorem cvBcast_envAsync (s : S) (i v : Nat) : (cvBcast s i v).envAsync = s.envAsync := by unfold cvBcast; simp
@[simp] theorem cvBcast_envEnabled (s : S) (i v : Nat) : (cvBcast s i v).envEnabled = s.envEnabled := by unfold cvBcast; simp
@[simp] theorem cvBcast_dead (s : S) (i v : Nat) : (cvBcast s i v).dead = s.dead := by unfold cvBcast; simp
@[simp] theorem cvBcast_fault (s : S) (i v : Nat) : (cvBcast s i v).fault = s.fault := by unfold cvBcast; simp
@[simp] theorem cvEnq_chan (s : S) (i v : Nat) (dl : Int) : (cvEnq s i v dl).chan = s.chan := by unfold cvEnq; simp
@[simp] theorem cvEnq_nchan (s : S) (i v : Nat) (dl : Int) : (cvEnq s i v dl).nchan = s.nchan := by unfold cvEnq; simp
@[simp] theorem cvEnq_mu (s : S) (i v : Nat) (dl : Int) : (cvEnq s i v dl).mu = s.mu := by unfold cvEnq; simp
@[simp] theorem cvEnq_wg (s : S) (i v : Nat) (dl : Int) : (cvEnq s i v dl).wg = s.wg := by unfold cvEnq; simp
@[simp] theorem cvEnq_all (s : S) (i v : Nat) (dl : Int) : (cvEnq s i v dl).all = s.all := by unfold cvEnq; simp
@[simp] theorem cvEnq_allCount (s : S) (i v : Nat) (dl : Int) : (cvEnq s i v dl).allCount = s.allCount := by unfold cvEnq; simp
@[simp] theorem cvEnq_evw (s : S) (i v : Nat) (dl : Int) : (cvEnq s i v dl).evw = s.evw := by unfold cvEnq; simp
@[simp] theorem cvEnq_armed (s : S) (i v : Nat) (dl : Int) : (cvEnq s i v dl).armed = s.armed := by unfold cvEnq; simp
@[simp] theorem cvEnq_nsleepers (s : S) (i v : Nat) (dl : Int) : (cvEnq s i v dl).nsleepers = s.nsleepers := by unfold cvEnq; simp
@[simp] theorem cvEnq_nlocked (s : S) (i v : Nat) (dl : Int) : (cvEnq s i v dl).nlocked = s.nlocked := by unfold cvEnq; simp
@[simp] theorem cvEnq_nreceivers (s : S) (i v : Nat) (dl : Int) : (cvEnq s i v dl).nreceivers = s.nreceivers := by unfold cvEnq; simp
@[simp] theorem cvEnq_nsenders (s : S) (i v : Nat) (dl : Int) : (cvEnq s i v dl).nsenders = s.nsenders := by unfold cvEnq; simp
@[simp] theorem cvEnq_nwaitgroupers (s : S) (i v : Nat) (dl : Int) : (cvEnq s i v dl).nwaitgroupers = s.nwaitgroupers := by unfold cvEnq; simp
@[simp] theorem cvEnq_nsuspended (s : S) (i v : Nat) (dl : Int) : (cvEnq s i v dl).nsuspended = s.nsuspended := by unfold cvEnq; simp
@[simp] theorem cvEnq_nevwaiters (s : S) (i v : Nat) (dl : Int) : (cvEnq s i v dl).nevwaiters = s.nevwaiters := by unfold cvEnq; simp
@[simp] theorem cvEnq_nsigwaiters (s : S) (i v : Nat) (dl : Int) : (cvEnq s i v dl).nsigwaiters = s.nsigwaiters := by unfold cvEnq; simp
@[simp] theorem cvEnq_nresumers (s : S) (i v : Nat) (dl : Int) : (cvEnq s i v dl).nresumers = s.nresumers := by unfold cvEnq; simp
@[simp] theorem cvEnq_niowaiters (s : S) (i v : Nat) (dl : Int) : (cvEnq s i v dl).niowaiters = s.niowaiters := by unfold cvEnq; simp
@[simp] theorem cvEnq_pool (s : S) (i v : Nat) (dl : Int) : (cvEnq s i v dl).pool = s.pool := by unfold cvEnq; simp
@[simp] theorem cvEnq_sigqueue (s : S) (i v : Nat) (dl : Int) : (cvEnq s i v dl).sigqueue = s.sigqueue := by unfold cvEnq; simp
@[simp] theorem cvEnq_sigwatchers (s : S) (i v : Nat) (dl : Int) : (cvEnq s i v dl).sigwatchers = s.sigwatchers := by unfold cvEnq; simp
@[simp] theorem cvEnq_jobs (s : S) (i v : Nat) (dl : Int) : (cvEnq s i v dl).jobs = s.jobs := by unfold cvEnq; simp
@[simp] theorem cvEnq_clock (s : S) (i v : Nat) (dl : Int) : (cvEnq s i v dl).clock = s.clock := by unfold cvEnq; simp
@[simp] theorem cvEnq_main (s : S) (i v : Nat) (dl : Int) : (cvEnq s i v dl).main = s.main := by unfold cvEnq; simp
@[simp] theorem cvEnq_envAsync (s : S) (i v : Nat) (dl : Int) : (cvEnq s i v dl).envAsync = s.envAsync := by unfold cvEnq; simp
@[simp] theorem cvEnq_envEnabled (s : S) (i v : Nat) (dl : Int) : (cvEnq s i v dl).envEnabled = s.envEnabled := by unfold cvEnq; simp
@[simp] theorem cvEnq_dead (s : S) (i v : Nat) (dl : Int) : (cvEnq s i v dl).dead = s.dead := by unfold cvEnq; simp
@[simp] theorem cvEnq_fault (s : S) (i v : Nat) (dl : Int) : (cvEnq s i v dl).fault = s.fault := by unfold cvEnq; simp
@[simp] theorem cvEnq_log (s : S) (i v : Nat) (dl : Int) : (cvEnq s i v dl).log = s.log := by unfold cvEnq; simp
@[simp] theorem cvWait_chan (s : S) (i v m : Nat) (dl : Int) : (cvWait s i v m dl).chan = s.chan := by unfold cvWait; (try dsimp only); (repeat' split) <;> simp
@[simp] theorem cvWait_nchan (s : S) (i v m : Nat) (dl : Int) : (cvWait s i v m dl).nchan = s.nchan := by unfold cvWait; (try dsimp only); (repeat' split) <;> simp
@[simp] theorem cvWait_wg (s : S) (i v m : Nat) (dl : Int) : (cvWait s i v m dl).wg = s.wg := by unfold cvWait; (try dsimp only); (repeat' split) <;> simp
@[simp] theorem cvWait_all (s : S) (i v m : Nat) (dl : Int) : (cvWait s i v m dl).all = s.all := by unfold cvWait; (try dsimp only); (repeat' split) <;> simp
@[simp] theorem cvWait_allCount (s : S) (i v m : Nat) (dl : Int) : (cvWait s i v m dl).allCount = s.allCount := by unfold cvWait; (try dsimp only); (repeat' split) <;> simp
@[simp] theorem cvWait_evw (s : S) (i v m : Nat) (dl : Int) : (cvWait s i v m dl).evw = s.evw := by unfold cvWait; (try dsimp only); (repeat' split) <;> simp
@[simp] theorem cvWait_armed (s : S) (i v m : Nat) (dl : Int) : (cvWait s i v m dl).armed = s.armed := by unfold cvWait; (try dsimp only); (repeat' split) <;> simp
@[simp] theorem cvWait_nsleepers (s : S) (i v m : Nat) (dl : Int) : (cvWait s i v m dl).nsleepers = s.nsleepers := by unfold cvWait; (try dsimp only); (repeat' split) <;> simp
@[simp] theorem cvWait_nlocked (s : S) (i v m : Nat) (dl : Int) : (cvWait s i v m dl).nlocked = s.nlocked := by unfold cvWait; (try dsimp only); (repeat' split) <;> simp
@[simp] theorem cvWait_nreceivers (s : S) (i v m : Nat) (dl : Int) : (cvWait s i v m dl).nreceivers = s.nreceivers := by unfold cvWait; (try dsimp only); (repeat' split) <;> simp
@[simp] theorem cvWait_nsenders (s : S) (i v m : Nat) (dl : Int) : (cvWait s i v m dl).nsenders = s.nsenders := by unfold cvWait; (try dsimp only); (repeat' split) <;> simp
@[simp] theorem cvWait_nwaitgroupers (s : S) (i v m : Nat) (dl : Int) : (cvWait s i v m dl).nwaitgroupers = s.nwaitgroupers := by unfold cvWait; (try dsimp only); (repeat' split) <;> simp
@[simp] theorem cvWait_nsuspended (s : S) (i v m : Nat) (dl : Int) : (cvWait s i v m dl).nsuspended = s.nsuspended := by unfold cvWait; (try dsimp only); (repeat' split) <;> simp
@[simp] theorem cvWait_nevwaiters (s : S) (i v m : Nat) (dl : Int) : (cvWait s i v m dl).nevwaiters = s.nevwaiters := by unfold cvWait; (try dsimp only); (repeat' split) <;> simp
@[simp] theorem cvWait_nsigwaiters (s : S) (i v m : Nat) (dl : Int) : (cvWait s i v m dl).nsigwaiters = s.nsigwaiters := by unfold cvWait; (try dsimp only); (repeat' split) <;> simp
@[simp] theorem cvWait_niowaiters (s : S) (i v m : Nat) (dl : Int) : (cvWait s i v m dl).niowaiters = s.niowaiters := by unfold cvWait; (try dsimp only); (repeat' split) <;> simp
@[simp] theorem cvWait_pool (s : S) (i v m : Nat) (dl : Int) : (cvWait s i v m dl).pool = s.pool := by unfold cvWait; (try dsimp only); (repeat' split) <;> simp
@[simp] theorem cvWait_sigqueue (s : S) (i v m : Nat) (dl : Int) : (cvWait s i v m dl).sigqueue = s.sigqueue := by unfold cvWait; (try dsimp only); (repeat' split) <;> simp
@[simp] theorem cvWait_sigwatchers (s : S) (i v m : Nat) (dl : Int) : (cvWait s i v m dl).sigwatchers = s.sigwatchers := by unfold cvWait; (try dsimp only); (repeat' split) <;> simp
@[simp] theorem cvWait_jobs (s : S) (i v m : Nat) (dl : Int) : (cvWait s i v m dl).jobs = s.jobs := by unfold cvWait; (try dsimp only); (repeat' split) <;> simp
@[simp] theorem cvWait_clock (s : S) (i v m : Nat) (dl : Int) : (cvWait s i v m dl).clock = s.clock := by unfold cvWait; (try dsimp only); (repeat' split) <;> simp
@[simp] theorem cvWait_main (s : S) (i v m : Nat) (dl : Int) : (cvWait s i v m dl).main = s.main := by unfold cvWait; (try dsimp only); (repeat' split) <;> simp
@[simp] theorem cvWait_envAsync (s : S) (i v m : Nat) (dl : Int) : (cvWait s i v m dl).envAsync = s.envAsync := by unfold cvWait; (try dsimp only); (repeat' split) <;> simp
@[simp] theorem cvWait_envEnabled (s : S) (i v m : Nat) (dl : Int) : (cvWait s i v m dl).envEnabled = s.envEnabled := by unfold cvWait; (try dsimp only); (repeat' split) <;> simp
@[simp] theorem cvWait_dead (s : S) (i v m : Nat) (dl : Int) : (cvWait s i v m dl).dead = s.dead := by unfold cvWait; (try dsimp only); (repeat' split) <;> simp
@[simp] theorem cvWait_fault (s : S) (i v m : Nat) (dl : Int) : (cvWait s i v m dl).fault = s.fault := by unfold cvWait; (try dsimp only); (repeat' split) <;> simp
@[simp] theorem doSleep_lists (s : S) (i : Nat) (dl : Int) : (doSleep s i dl).lists = s.lists := by unfold doSleep; (try dsimp only); (repeat' split) <;> simp
@[simp] theorem doSleep_chan (s : S) (i : Nat) (dl : Int) : (doSleep s i dl).chan = s.chan := by unfold doSleep; (try dsimp only); (repeat' split) <;> simp
@[simp] theorem doSleep_nchan (s : S) (i : Nat) (dl : Int) : (doSleep s i dl).nchan = s.nchan := by unfold doSleep; (try dsimp only); (repeat' split) <;> simp
@[simp] theorem doSleep_mu (s : S) (i : Nat) (dl : Int) : (doSleep s i dl).mu = s.mu := by unfold doSleep; (try dsimp only); (repeat' split) <;> simp
@[simp] theorem doSleep_wg (s : S) (i : Nat) (dl : Int) : (doSleep s i dl).wg = s.wg := by unfold doSleep; (try dsimp only); (repeat' split) <;> simp
@[simp] theorem doSleep_all (s : S) (i : Nat) (dl : Int) : (doSleep s i dl).all = s.all := by unfold doSleep; (try dsimp only); (repeat' split) <;> simp
@[simp] theorem doSleep_allCount (s : S) (i : Nat) (dl : Int) : (doSleep s i dl).allCount = s.allCount := by unfold doSleep; (try dsimp only); (repeat' split) <;> simp
@[simp] theorem doSleep_evw (s : S) (i : Nat) (dl : Int) : (doSleep s i dl).evw = s.evw := by unfold doSleep; (try dsimp only); (repeat' split) <;> simp
@[simp] theorem doSleep_armed (s : S) (i : Nat) (dl : Int) : (doSleep s i dl).armed = s.armed := by unfold doSleep; (try dsimp only); (repeat' split) <;> simp
@[simp] theorem doSleep_nlocked (s : S) (i : Nat) (dl : Int) : (doSleep s i dl).nlocked = s.nlocked := by unfold doSleep; (try dsimp only); (repeat' split) <;> simp
@[simp] theorem doSleep_nreceivers (s : S) (i : Nat) (dl : Int) : (doSleep s i dl).nreceivers = s.nreceivers := by unfold doSleep; (try dsimp only); (repeat' split) <;> simp
@[simp] theorem doSleep_nsenders (s : S) (i : Nat) (dl : Int) : (doSleep s i dl).nsenders = s.nsenders := by unfold doSleep; (try dsimp only); (repeat' split) <;> simp
@[simp] theorem doSleep_nwaitgroupers (s : S) (i : Nat) (dl : Int) : (doSleep s i dl).nwaitgroupers = s.nwaitgroupers := by unfold doSleep; (try dsimp only); (repeat' split) <;> simp
@[simp] theorem doSleep_ncondwaiters (s : S) (i : Nat) (dl : Int) : (doSleep s i dl).ncondwaiters = s.ncondwaiters := by unfold doSleep; (try dsimp only); (repeat' split) <;> simp
@[simp] theorem doSleep_nsuspended (s : S) (i : Nat) (dl : Int) : (doSleep s i dl).nsuspended = s.nsuspended := by unfold doSleep; (try dsimp only); (repeat' split) <;> simp
@[simp] theorem doSleep_nevwaiters (s : S) (i : Nat) (dl : Int) : (doSleep s i dl).nevwaiters = s.nevwaiters := by unfold doSleep; (try dsimp only); (repeat' split) <;> simp
@[simp] theorem doSleep_nsigwaiters (s : S) (i : Nat) (dl : Int) : (doSleep s i dl).nsigwaiters = s.nsigwaiters := by unfold doSleep; (try dsimp only); (repeat' split) <;> simp
@[simp] theorem doSleep_nresumers (s : S) (i : Nat) (dl : Int) : (doSleep s i dl).nresumers = s.nresumers := by unfold doSleep; (try dsimp only); (repeat' split) <;> simp
@[simp] theorem doSleep_niowaiters (s : S) (i : Nat) (dl : Int) : (doSleep s i dl).niowaiters = s.niowaiters := by unfold doSleep; (try dsimp only); (repeat' split) <;> simp
@[simp] theorem doSleep_pool (s : S) (i : Nat) (dl : Int) : (doSleep s i dl).pool = s.pool := by unfold doSleep; (try dsimp only); (repeat' split) <;> simp
@[simp] theorem doSleep_sigqueue (s : S) (i : Nat) (dl : Int) : (doSleep s i dl).sigqueue = s.sigqueue := by unfold doSleep; (try dsimp only); (repeat' split) <;> simp
@[simp] theorem doSleep_sigwatchers (s : S) (i : Nat) (dl : Int) : (doSleep s i dl).sigwatchers = s.sigwatchers := by unfold doSleep; (try dsimp only); (repeat' split) <;> simp
@[simp] theorem doSleep_jobs (s : S) (i : Nat) (dl : Int) : (doSleep s i dl).jobs = s.jobs := by unfold doSleep; (try dsimp only); (repeat' split) <;> simp
@[simp] theorem doSleep_clock (s : S) (i : Nat) (dl : Int) : (doSleep s i dl).clock = s.clock := by unfold doSleep; (try dsimp only); (repeat' split) <;> simp
@[simp] theorem doSleep_main (s : S) (i : Nat) (dl : Int) : (doSleep s i dl).main = s.main := by unfold doSleep; (try dsimp only); (repeat' split) <;> simp
@[simp] theorem doSleep_envAsync (s : S) (i : Nat) (dl : Int) : (doSleep s i dl).envAsync = s.envAsync := by unfold doSleep; (try dsimp only); (repeat' split) <;> simp
@[simp] theorem doSleep_envEnabled (s : S) (i : Nat) (dl : Int) : (doSleep s i dl).envEnabled = s.envEnabled := by unfold doSleep; (try dsimp only); (repeat' split) <;> simp
@[simp] theorem doSleep_dead (s : S) (i : Nat) (dl : Int) : (doSleep s i dl).dead = s.dead := by unfold doSleep; (try dsimp only); (repeat' split) <;> simp
@[simp] theorem doSleep_fault (s : S) (i : Nat) (dl : Int) : (doSleep s i dl).fault = s.fault := by unfold doSleep; (try dsimp only); (repeat' split) <;> simp
@[simp] theorem doSleep_log (s : S) (i : Nat) (dl : Int) : (doSleep s i dl).log = s.log := by unfold doSleep; (try dsimp only); (repeat' split) <;> simp
@[simp] theorem doJoin_chan (s : S) (i id : Nat) (dl : Int) : (doJoin s i id dl).chan = s.chan := by unfold doJoin; (try dsimp only); (repeat' split) <;> simp
@[simp] theorem doJoin_nchan (s : S) (i id : Nat) (dl : Int) : (doJoin s i id dl).nchan = s.nchan := by unfold doJoin; (try dsimp only); (repeat' split) <;> simp
@[simp] theorem doJoin_mu (s : S) (i id : Nat) (dl : Int) : (doJoin s i id dl).mu = s.mu := by unfold doJoin; (try dsimp only); (repeat' split) <;> simp
@[simp] theorem doJoin_wg (s : S) (i id : Nat) (dl : Int) : (doJoin s i id dl).wg = s.wg := by unfold doJoin; (try dsimp only); (repeat' split) <;> simp
@[simp] theorem doJoin_all (s : S) (i id : Nat) (dl : Int) : (doJoin s i id dl).all = s.all := by unfold doJoin; (try dsimp only); (repeat' split) <;> simp
@[simp] theorem doJoin_allCount (s : S) (i id : Nat) (dl : Int) : (doJoin s i id dl).allCount = s.allCount := by unfold doJoin; (try dsimp only); (repeat' split) <;> simp
@[simp] theorem doJoin_evw (s : S) (i id : Nat) (dl : Int) : (doJoin s i id dl).evw = s.evw := by unfold doJoin; (try dsimp only); (repeat' split) <;> simp
@[simp] theorem doJoin_armed (s : S) (i id : Nat) (dl : Int) : (doJoin s i id dl).armed = s.armed := by unfold doJoin; (try dsimp only); (repeat' split) <;> simp
@[simp] theorem doJoin_nsleepers (s : S) (i id : Nat) (dl : Int) : (doJoin s i id dl).nsleepers = s.nsleepers := by unfold doJoin; (try dsimp only); (repeat' split) <;> simp
@[simp] theorem doJoin_nlocked (s : S) (i id : Nat) (dl : Int) : (doJoin s i id dl).nlocked = s.nlocked := by unfold doJoin; (try dsimp only); (repeat' split) <;> simp
@[simp] theorem doJoin_nreceivers (s : S) (i id : Nat) (dl : Int) : (doJoin s i id dl).nreceivers = s.nreceivers := by unfold doJoin; (try dsimp only); (repeat' split) <;> simp
@[simp] theorem doJoin_nsenders (s : S) (i id : Nat) (dl : Int) : (doJoin s i id dl).nsenders = s.nsenders := by unfold doJoin; (try dsimp only); (repeat' split) <;> simp
@[simp] theorem doJoin_nwaitgroupers (s : S) (i id : Nat) (dl : Int) : (doJoin s i id dl).nwaitgroupers = s.nwaitgroupers := by unfold doJoin; (try dsimp only); (repeat' split) <;> simp
@[simp] theorem doJoin_ncondwaiters (s : S) (i id : Nat) (dl : Int) : (doJoin s i id dl).ncondwaiters = s.ncondwaiters := by unfold doJoin; (try dsimp only); (repeat' split) <;> simp
@[simp] theorem doJoin_nsuspended (s : S) (i id : Nat) (dl : Int) : (doJoin s i id dl).nsuspended = s.nsuspended := by unfold doJoin; (try dsimp only); (repeat' split) <;> simp
@[simp] theorem doJoin_nevwaiters (s : S) (i id : Nat) (dl : Int) : (doJoin s i id dl).nevwaiters = s.nevwaiters := by unfold doJoin; (try dsimp only); (repeat' split) <;> simp
@[simp] theorem doJoin_nsigwaiters (s : S) (i id : Nat) (dl : Int) : (doJoin s i id dl).nsigwaiters = s.nsigwaiters := by unfold doJoin; (try dsimp only); (repeat' split) <;> simp
@[simp] theorem doJoin_nresumers (s : S) (i id : Nat) (dl : Int) : (doJoin s i id dl).nresumers = s.nresumers := by unfold doJoin; (try dsimp only); (repeat' split) <;> simp
@[simp] theorem doJoin_niowaiters (s : S) (i id : Nat) (dl : Int) : (doJoin s i id dl).niowaiters = s.niowaiters := by unfold doJoin; (try dsimp only); (repeat' split) <;> simp
@[simp] theorem doJoin_pool (s : S) (i id : Nat) (dl : Int) : (doJoin s i id dl).pool = s.pool := by unfold doJoin; (try dsimp only); (repeat' split) <;> simp
@[simp] theorem doJoin_sigqueue (s : S) (i id : Nat) (dl : Int) : (doJoin s i id dl).sigqueue = s.sigqueue := by unfold doJoin; (try dsimp only); (repeat' split) <;> simp
@[simp] theorem doJoin_sigwatchers (s : S) (i id : Nat) (dl : Int) : (doJoin s i id dl).sigwatchers = s.sigwatchers := by unfold doJoin; (try dsimp only); (repeat' split) <;> simp
@[simp] theorem doJoin_jobs (s : S) (i id : Nat) (dl : Int) : (doJoin s i id dl).jobs = s.jobs := by unfold doJoin; (try dsimp only); (repeat' split) <;> simp
@[simp] theorem doJoin_clock (s : S) (i id : Nat) (dl : Int) : (doJoin s i id dl).clock = s.clock := by unfold doJoin; (try dsimp only); (repeat' split) <;> simp
@[simp] theorem doJoin_main (s : S) (i id : Nat) (dl : Int) : (doJoin s i id dl).main = s.main := by unfold doJoin; (try dsimp only); (repeat' split) <;> simp
@[simp] theorem doJoin_envAsync (s : S) (i id : Nat) (dl : Int) : (doJoin s i id dl).envAsync = s.envAsync := by unfold doJoin; (try dsimp only); (repeat' split) <;> simp
@[simp] theorem doJoin_envEnabled (s : S) (i id : Nat) (dl : Int) : (doJoin s i id dl).envEnabled = s.envEnabled := by unfold doJoin; (try dsimp only); (repeat' split) <;> simp
@[simp] theorem doJoin_dead (s : S) (i id : Nat) (dl : Int) : (doJoin s i id dl).dead = s.dead := by unfold doJoin; (try dsimp only); (repeat' split) <;> simp
@[simp] theorem doJoin_fault (s : S) (i id : Nat) (dl : Int) : (doJoin s i id dl).fault = s.fault := by unfold doJoin; (try dsimp only); (repeat' split) <;> simp
@[simp] theorem doSuspend_lists (s : S) (i : Nat) (dl : Int) : (doSuspend s i dl).lists = s.lists := by unfold doSuspend; simp
@[simp] theorem doSuspend_chan (s : S) (i : Nat) (dl : Int) : (doSuspend s i dl).chan = s.chan := by unfold doSuspend; simp
@[simp] theorem doSuspend_nchan (s : S) (i : Nat) (dl : Int) : (doSuspend s i dl).nchan = s.nchan := by unfold doSuspend; simp
@[simp] theorem doSuspend_mu (s : S) (i : Nat) (dl : Int) : (doSuspend s i dl).mu = s.mu := by unfold doSuspend; simp
@[simp] theorem doSuspend_wg (s : S) (i : Nat) (dl : Int) : (doSuspend s i dl).wg = s.wg := by unfold doSuspend; simp
@[simp] theorem doSuspend_all (s : S) (i : Nat) (dl : Int) : (doSuspend s i dl).all = s.all := by unfold doSuspend; simp
@[simp] theorem doSuspend_allCount (s : S) (i : Nat) (dl : Int) : (doSuspend s i dl).allCount = s.allCount := by unfold doSuspend; simp
@[simp] theorem doSuspend_evw (s : S) (i : Nat) (dl : Int) : (doSuspend s i dl).evw = s.evw := by unfold doSuspend; simp
@[simp] theorem doSuspend_armed (s : S) (i : Nat) (dl : Int) : (doSuspend s i dl).armed = s.armed := by unfold doSuspend; simp
@[simp] theorem doSuspend_nsleepers (s : S) (i : Nat) (dl : Int) : (doSuspend s i dl).nsleepers = s.nsleepers := by unfold doSuspend; simp
@[simp] theorem doSuspend_nlocked (s : S) (i : Nat) (dl : Int) : (doSuspend s i dl).nlocked = s.nlocked := by unfold doSuspend; simp
@[simp] theorem doSuspend_nreceivers (s : S) (i : Nat) (dl : Int) : (doSuspend s i dl).nreceivers = s.nreceivers := by unfold doSuspend; simp
@[simp] theorem doSuspend_nsenders (s : S) (i : Nat) (dl : Int) : (doSuspend s i dl).nsenders = s.nsenders := by unfold doSuspend; simp
@[simp] theorem doSuspend_nwaitgroupers (s : S) (i : Nat) (dl : Int) : (doSuspend s i dl).nwaitgroupers = s.nwaitgroupers := by unfold doSuspend; simp
@[simp] theorem doSuspend_ncondwaiters (s : S) (i : Nat) (dl : Int) : (doSuspend s i dl).ncondwaiters = s.ncondwaiters := by unfold doSuspend; simp
@[simp] theorem doSuspend_nevwaiters (s : S) (i : Nat) (dl : Int) : (doSuspend s i dl).nevwaiters = s.nevwaiters := by unfold doSuspend; simp
@[simp] theorem doSuspend_nsigwaiters (s : S) (i : Nat) (dl : Int) : (doSuspend s i dl).nsigwaiters = s.nsigwaiters := by unfold doSuspend; simp
@[simp] theorem doSuspend_nresumers (s : S) (i : Nat) (dl : Int) : (doSuspend s i dl).nresumers = s.nresumers := by unfold doSuspend; simp
@[simp] theorem doSuspend_niowaiters (s : S) (i : Nat) (dl : Int) : (doSuspend s i dl).niowaiters = s.niowaiters := by unfold doSuspend; simp
@[simp] theorem doSuspend_pool (s : S) (i : Nat) (dl : Int) : (doSuspend s i dl).pool = s.pool := by unfold doSuspend; simp
@[simp] theorem doSuspend_sigqueue (s : S) (i : Nat) (dl : Int) : (doSuspend s i dl).sigqueue = s.sigqueue := by unfold doSuspend; simp
@[simp] theorem doSuspend_sigwatchers (s : S) (i : Nat) (dl : Int) : (doSuspend s i dl).sigwatchers = s.sigwatchers := by unfold doSuspend; simp
@[simp] theorem doSuspend_jobs (s : S) (i : Nat) (dl : Int) : (doSuspend s i dl).jobs = s.jobs := by unfold doSuspend; simp
@[simp] theorem doSuspend_clock (s : S) (i : Nat) (dl : Int) : (doSuspend s i dl).clock = s.clock := by unfold doSuspend; simp
@[simp] theorem doSuspend_main (s : S) (i : Nat) (dl : Int) : (doSuspend s i dl).main = s.main := by unfold doSuspend; simp
@[simp] theorem doSuspend_envAsync (s : S) (i : Nat) (dl : Int) : (doSuspend s i dl).envAsync = s.envAsync := by unfold doSuspend; simp
@[simp] theorem doSuspend_envEnabled (s : S) (i : Nat) (dl : Int) : (doSuspend s i dl).envEnabled = s.envEnabled := by unfold doSuspend; simp
@[simp] theorem doSuspend_dead (s : S) (i : Nat) (dl : Int) : (doSuspend s i dl).dead = s.dead := by unfold doSuspend; simp
@[simp] theorem doSuspend_fault (s : S) (i : Nat) (dl : Int) : (doSuspend s i dl).fault = s.fault := by unfold doSuspend; simp
@[simp] theorem doSuspend_log (s : S) (i : Nat) (dl : Int) : (doSuspend s i dl).log = s.log := by unfold doSuspend; simp
@[simp] theorem doResume_lists (s : S) (i id : Nat) : (doResume s i id).lists = s.lists := by unfold doResume; (try dsimp only); (repeat' split) <;> simp
@[simp] theorem doResume_chan (s : S) (i id : Nat) : (doResume s i id).chan = s.chan := by unfold doResume; (try dsimp only); (repeat' split) <;> simp
@[simp] theorem doResume_nchan (s : S) (i id : Nat) : (doResume s i id).nchan = s.nchan := by unfold doResume; (try dsimp only); (repeat' split) <;> simp
@[simp] theorem doResume_mu (s : S) (i id : Nat) : (doResume s i id).mu = s.mu := by unfold doResume; (try dsimp only); (repeat' split) <;> simp
@[simp] theorem doResume_wg (s : S) (i id : Nat) : (doResume s i id).wg = s.wg := by unfold doResume; (try dsimp only); (repeat' split) <;> simp
@[simp] theorem doResume_all (s : S) (i id : Nat) : (doResume s i id).all = s.all := by unfold doResume; (try dsimp only); (repeat' split) <;> simp
@[simp] theorem doResume_allCount (s : S) (i id : Nat) : (doResume s i id).allCount = s.allCount := by unfold doResume; (try dsimp only); (repeat' split) <;> simp
@[simp] theorem doResume_dlq (s : S) (i id : Nat) : (doResume s i id).dlq = s.dlq := by unfold doResume; (try dsimp only); (repeat' split) <;> simp
@[simp] theorem doResume_evw (s : S) (i id : Nat) : (doResume s i id).evw = s.evw := by unfold doResume; (try dsimp only); (repeat' split) <;> simp
@[simp] theorem doResume_armed (s : S) (i id : Nat) : (doResume s i id).armed = s.armed := by unfold doResume; (try dsimp only); (repeat' split) <;> simp
@[simp] theorem doResume_nsleepers (s : S) (i id : Nat) : (doResume s i id).nsleepers = s.nsleepers := by unfold doResume; (try dsimp only); (repeat' split) <;> simp
@[simp] theorem doResume_nlocked (s : S) (i id : Nat) : (doResume s i id).nlocked = s.nlocked := by unfold doResume; (try dsimp only); (repeat' split) <;> simp
@[simp] theorem doResume_nreceivers (s : S) (i id : Nat) : (doResume s i id).nreceivers = s.nreceivers := by unfold doResume; (try dsimp only); (repeat' split) <;> simp
@[simp] theorem doResume_nsenders (s : S) (i id : Nat) : (doResume s i id).nsenders = s.nsenders := by unfold doResume; (try dsimp only); (repeat' split) <;> simp
@[simp] theorem doResume_nwaitgroupers (s : S) (i id : Nat) : (doResume s i id).nwaitgroupers = s.nwaitgroupers := by unfold doResume; (try dsimp only); (repeat' split) <;> simp
@[simp] theorem doResume_ncondwaiters (s : S) (i id : Nat) : (doResume s i id).ncondwaiters = s.ncondwaiters := by unfold doResume; (try dsimp only); (repeat' split) <;> simp
@[simp] theorem doResume_nsuspended (s : S) (i id : Nat) : (doResume s i id).nsuspended = s.nsuspended := by unfold doResume; (try dsimp only); (repeat' split) <;> simp
@[simp] theorem doResume_nevwaiters (s : S) (i id : Nat) : (doResume s i id).nevwaiters = s.nevwaiters := by unfold doResume; (try dsimp only); (repeat' split) <;> simp
@[simp] theorem doResume_nsigwaiters (s : S) (i id : Nat) : (doResume s i id).nsigwaiters = s.nsigwaiters := by unfold doResume; (try dsimp only); (repeat' split) <;> simp
@[simp] theorem doResume_nresumers (s : S) (i id : Nat) : (doResume s i id).nresumers = s.nresumers := by unfold doResume; (try dsimp only); (repeat' split) <;> simp
@[simp] theorem doResume_niowaiters (s : S) (i id : Nat) : (doResume s i id).niowaiters = s.niowaiters := by unfold doResume; (try dsimp only); (repeat' split) <;> simp
@[simp] theorem doResume_pool (s : S) (i id : Nat) : (doResume s i id).pool = s.pool := by unfold doResume; (try dsimp only); (repeat' split) <;> simp
@[simp] theorem doResume_sigqueue (s : S) (i id : Nat) : (doResume s i id).sigqueue = s.sigqueue := by unfold doResume; (try dsimp only); (repeat' split) <;> simp
@[simp] theorem doResume_sigwatchers (s : S) (i id : Nat) : (doResume s i id).sigwatchers = s.sigwatchers := by unfold doResume; (try dsimp only); (repeat' split) <;> simp
@[simp] theorem doResume_jobs (s : S) (i id : Nat) : (doResume s i id).jobs = s.jobs := by unfold doResume; (try dsimp only); (repeat' split) <;> simp
@[simp] theorem doResume_clock (s : S) (i id : Nat) : (doResume s i id).clock = s.clock := by unfold doResume; (try dsimp only); (repeat' split) <;> simp
@[simp] theorem doResume_main (s : S) (i id : Nat) : (doResume s i id).main = s.main := by unfold doResume; (try dsimp only); (repeat' split) <;> simp
@[simp] theorem doResume_envAsync (s : S) (i id : Nat) : (doResume s i id).envAsync = s.envAsync := by unfold doResume; (try dsimp only); (repeat' split) <;> simp
@[simp] theorem doResume_envEnabled (s : S) (i id : Nat) : (doResume s i id).envEnabled = s.envEnabled := by unfold doResume; (try dsimp only); (repeat' split) <;> simp
@[simp] theorem doResume_dead (s : S) (i id : Nat) : (doResume s i id).dead = s.dead := by unfold doResume; (try dsimp only); (repeat' split) <;> simp
@[simp] theorem doResume_fault (s : S) (i id : Nat) : (doResume s i id).fault = s.fault := by unfold doResume; (try dsimp only); (repeat' split) <;> simp
@[simp] theorem doCancel_chan (s : S) (i id : Nat) (dl : Int) : (doCancel s i id dl).chan = s.chan := by unfold doCancel; (try dsimp only); (repeat' split) <;> simp
@[simp] theorem doCancel_nchan (s : S) (i id : Nat) (dl : Int) : (doCancel s i id dl).nchan = s.nchan := by unfold doCancel; (try dsimp only); (repeat' split) <;> simp
@[simp] theorem doCancel_mu (s : S) (i id : Nat) (dl : Int) : (doCancel s i id dl).mu = s.mu := by unfold doCancel; (try dsimp only); (repeat' split) <;> simp
@[simp] theorem doCancel_wg (s : S) (i id : Nat) (dl : Int) : (doCancel s i id dl).wg = s.wg := by unfold doCancel; (try dsimp only); (repeat' split) <;> simp
@[simp] theorem doCancel_all (s : S) (i id : Nat) (dl : Int) : (doCancel s i id dl).all = s.all := by unfold doCancel; (try dsimp only); (repeat' split) <;> simp
@[simp] theorem doCancel_allCount (s : S) (i id : Nat) (dl : Int) : (doCancel s i id dl).allCount = s.allCount := by unfold doCancel; (try dsimp only); (repeat' split) <;> simp
@[simp] theorem doCancel_evw (s : S) (i id : Nat) (dl : Int) : (doCancel s i id dl).evw = s.evw := by unfold doCancel; (try dsimp only); (repeat' split) <;> simp
@[simp] theorem doCancel_armed (s : S) (i id : Nat) (dl : Int) : (doCancel s i id dl).armed = s.armed := by unfold doCancel; (try dsimp only); (repeat' split) <;> simp
@[simp] theorem doCancel_nsleepers (s : S) (i id : Nat) (dl : Int) : (doCancel s i id dl).nsleepers = s.nsleepers := by unfold doCancel; (try dsimp only); (repeat' split) <;> simp
@[simp] theorem doCancel_nlocked (s : S) (i id : Nat) (dl : Int) : (doCancel s i id dl).nlocked = s.nlocked := by unfold doCancel; (try dsimp only); (repeat' split) <;> simp
@[simp] theorem doCancel_nreceivers (s : S) (i id : Nat) (dl : Int) : (doCancel s i id dl).nreceivers = s.nreceivers := by unfold doCancel; (try dsimp only); (repeat' split) <;> simp
@[simp] theorem doCancel_nsenders (s : S) (i id : Nat) (dl : Int) : (doCancel s i id dl).nsenders = s.nsenders := by unfold doCancel; (try dsimp only); (repeat' split) <;> simp
@[simp] theorem doCancel_nwaitgroupers (s : S) (i id : Nat) (dl : Int) : (doCancel s i id dl).nwaitgroupers = s.nwaitgroupers := by unfold doCancel; (try dsimp only); (repeat' split) <;> simp
@[simp] theorem doCancel_ncondwaiters (s : S) (i id : Nat) (dl : Int) : (doCancel s i id dl).ncondwaiters = s.ncondwaiters := by unfold doCancel; (try dsimp only); (repeat' split) <;> simp
@[simp] theorem doCancel_nsuspended (s : S) (i id : Nat) (dl : Int) : (doCancel s i id dl).nsuspended = s.nsuspended := by unfold doCancel; (try dsimp only); (repeat' split) <;> simp
@[simp] theorem doCancel_nevwaiters (s : S) (i id : Nat) (dl : Int) : (doCancel s i id dl).nevwaiters = s.nevwaiters := by unfold doCancel; (try dsimp only); (repeat' split) <;> simp
@[simp] theorem doCancel_nsigwaiters (s : S) (i id : Nat) (dl : Int) : (doCancel s i id dl).nsigwaiters = s.nsigwaiters := by unfold doCancel; (try dsimp only); (repeat' split) <;> simp
@[simp] theorem doCancel_nresumers (s : S) (i id : Nat) (dl : Int) : (doCancel s i id dl).nresumers = s.nresumers := by unfold doCancel; (try dsimp only); (repeat' split) <;> simp
@[simp] theorem doCancel_niowaiters (s : S) (i id : Nat) (dl : Int) : (doCancel s i id dl).niowaiters = s.niowaiters := by unfold doCancel; (try dsimp only); (repeat' split) <;> simp
@[simp] theorem doCancel_pool (s : S) (i id : Nat) (dl : Int) : (doCancel s i id dl).pool = s.pool := by unfold doCancel; (try dsimp only); (repeat' split) <;> simp
@[simp] theorem doCancel_sigqueue (s : S) (i id : Nat) (dl : Int) : (doCancel s i id dl).sigqueue = s.sigqueue := by unfold doCancel; (try dsimp only); (repeat' split) <;> simp
@[simp] theorem doCancel_sigwatchers (s : S) (i id : Nat) (dl : Int) : (doCancel s i id dl).sigwatchers = s.sigwatchers := by unfold doCancel; (try dsimp only); (repeat' split) <;> simp
@[simp] theorem doCancel_jobs (s : S) (i id : Nat) (dl : Int) : (doCancel s i id dl).jobs = s.jobs := by unfold doCancel; (try dsimp only); (repeat' split) <;> simp
@[simp] theorem doCancel_clock (s : S) (i id : Nat) (dl : Int) : (doCancel s i id dl).clock = s.clock := by unfold doCancel; (try dsimp only); (repeat' split) <;> simp
@[simp] theorem doCancel_main (s : S) (i id : Nat) (dl : Int) : (doCancel s i id dl).main = s.main := by unfold doCancel; (try dsimp only); (repeat' split) <;> simp
@[simp] theorem doCancel_envAsync (s : S) (i id : Nat) (dl : Int) : (doCancel s i id dl).envAsync = s.envAsync := by unfold doCancel; (try dsimp only); (repeat' split) <;> simp
@[simp] theorem doCancel_envEnabled (s : S) (i id : Nat) (dl : Int) : (doCancel s i id dl).envEnabled = s.envEnabled := by unfold doCancel; (try dsimp only); (repeat' split) <;> simp
@[simp] theorem doCancel_dead (s : S) (i id : Nat) (dl : Int) : (doCancel s i id dl).dead = s.dead := by unfold doCancel; (try dsimp only); (repeat' split) <;> simp
@[simp] theorem doCancel_fault (s : S) (i id : Nat) (dl : Int) : (doCancel s i id dl).fault = s.fault := by unfold doCancel; (try dsimp only); (repeat' split) <;> simp
@[simp] theorem doSigWait_chan (s : S) (i : Nat) (dl : Int) : (doSigWait s i dl).chan = s.chan := by unfold doSigWait; (try dsimp only); (repeat' split) <;> simp
@[simp] theorem doSigWait_nchan (s : S) (i : Nat) (dl : Int) : (doSigWait s i dl).nchan = s.nchan := by unfold doSigWait; (try dsimp only); (repeat' split) <;> simp
@[simp] theorem doSigWait_mu (s : S) (i : Nat) (dl : Int) : (doSigWait s i dl).mu = s.mu := by unfold doSigWait; (try dsimp only); (repeat' split) <;> simp
@[simp] theorem doSigWait_wg (s : S) (i : Nat) (dl : Int) : (doSigWait s i dl).wg = s.wg := by unfold doSigWait; (try dsimp only); (repeat' split) <;> simp
@[simp] theorem doSigWait_all (s : S) (i : Nat) (dl : Int) : (doSigWait s i dl).all = s.all := by unfold doSigWait; (try dsimp only); (repeat' split) <;> simp
@[simp] theorem doSigWait_allCount (s : S) (i : Nat) (dl : Int) : (doSigWait s i dl).allCount = s.allCount := by unfold doSigWait; (try dsimp only); (repeat' split) <;> simp
@[simp] theorem doSigWait_evw (s : S) (i : Nat) (dl : Int) : (doSigWait s i dl).evw = s.evw := by unfold doSigWait; (try dsimp only); (repeat' split) <;> simp
@[simp] theorem doSigWait_armed (s : S) (i : Nat) (dl : Int) : (doSigWait s i dl).armed = s.armed := by unfold doSigWait; (try dsimp only); (repeat' split) <;> simp
@[simp] theorem doSigWait_nsleepers (s : S) (i : Nat) (dl : Int) : (doSigWait s i dl).nsleepers = s.nsleepers := by unfold doSigWait; (try dsimp only); (repeat' split) <;> simp
@[simp] theorem doSigWait_nlocked (s : S) (i : Nat) (dl : Int) : (doSigWait s i dl).nlocked = s.nlocked := by unfold doSigWait; (try dsimp only); (repeat' split) <;> simp
@[simp] theorem doSigWait_nreceivers (s : S) (i : Nat) (dl : Int) : (doSigWait s i dl).nreceivers = s.nreceivers := by unfold doSigWait; (try dsimp only); (repeat' split) <;> simp
@[simp] theorem doSigWait_nsenders (s : S) (i : Nat) (dl : Int) : (doSigWait s i dl).nsenders = s.nsenders := by unfold doSigWait; (try dsimp only); (repeat' split) <;> simp
@[simp] theorem doSigWait_nwaitgroupers (s : S) (i : Nat) (dl : Int) : (doSigWait s i dl).nwaitgroupers = s.nwaitgroupers := by unfold doSigWait; (try dsimp only); (repeat' split) <;> simp
@[simp] theorem doSigWait_ncondwaiters (s : S) (i : Nat) (dl : Int) : (doSigWait s i dl).ncondwaiters = s.ncondwaiters := by unfold doSigWait; (try dsimp only); (repeat' split) <;> simp
@[simp] theorem doSigWait_nsuspended (s : S) (i : Nat) (dl : Int) : (doSigWait s i dl).nsuspended = s.nsuspended := by unfold doSigWait; (try dsimp only); (repeat' split) <;> simp
@[simp] theorem doSigWait_nevwaiters (s : S) (i : Nat) (dl : Int) : (doSigWait s i dl).nevwaiters = s.nevwaiters := by unfold doSigWait; (try dsimp only); (repeat' split) <;> simp
@[simp] theorem doSigWait_nresumers (s : S) (i : Nat) (dl : Int) : (doSigWait s i dl).nresumers = s.nresumers := by unfold doSigWait; (try dsimp only); (repeat' split) <;> simp
@[simp] theorem doSigWait_niowaiters (s : S) (i : Nat) (dl : Int) : (doSigWait s i dl).niowaiters = s.niowaiters := by unfold doSigWait; (try dsimp only); (repeat' split) <;> simp
@[simp] theorem doSigWait_pool (s : S) (i : Nat) (dl : Int) : (doSigWait s i dl).pool = s.pool := by unfold doSigWait; (try dsimp only); (repeat' split) <;> simp
@[simp] theorem doSigWait_sigqueue (s : S) (i : Nat) (dl : Int) : (doSigWait s i dl).sigqueue = s.sigqueue := by unfold doSigWait; (try dsimp only); (repeat' split) <;> simp
@[simp] theorem doSigWait_sigwatchers (s : S) (i : Nat) (dl : Int) : (doSigWait s i dl).sigwatchers = s.sigwatchers := by unfold doSigWait; (try dsimp only); (repeat' split) <;> simp
@[simp] theorem doSigWait_jobs (s : S) (i : Nat) (dl : Int) : (doSigWait s i dl).jobs = s.jobs := by unfold doSigWait; (try dsimp only); (repeat' split) <;> simp
@[simp] theorem doSigWait_clock (s : S) (i : Nat) (dl : Int) : (doSigWait s i dl).clock = s.clock := by unfold doSigWait; (try dsimp only); (repeat' split) <;> simp
@[simp] theorem doSigWait_main (s : S) (i : Nat) (dl : Int) : (doSigWait s i dl).main = s.main := by unfold doSigWait; (try dsimp only); (repeat' split) <;> simp
@[simp] theorem doSigWait_envAsync (s : S) (i : Nat) (dl : Int) : (doSigWait s i dl).envAsync = s.envAsync := by unfold doSigWait; (try dsimp only); (repeat' split) <;> simp
@[simp] theorem doSigWait_envEnabled (s : S) (i : Nat) (dl : Int) : (doSigWait s i dl).envEnabled = s.envEnabled := by unfold doSigWait; (try dsimp only); (repeat' split) <;> simp
@[simp] theorem doSigWait_dead (s : S) (i : Nat) (dl : Int) : (doSigWait s i dl).dead = s.dead := by unfold doSigWait; (try dsimp only); (repeat' split) <;> simp
@[simp] theorem doSigWait_fault (s : S) (i : Nat) (dl : Int) : (doSigWait s i dl).fault = s.fault := by unfold doSigWait; (try dsimp only); (repeat' split) <;> simp
@[simp] theorem doSigWait_log (s : S) (i : Nat) (dl : Int) : (doSigWait s i dl).log = s.log := by unfold doSigWait; (try dsimp only); (repeat' split) <;> simp
@[simp] theorem doSigWatch_sco (s : S) (i n : Nat) : (doSigWatch s i n).sco = s.sco := by unfold doSigWatch; (try dsimp only); (repeat' split) <;> simp
@[simp] theorem doSigWatch_lists (s : S) (i n : Nat) : (doSigWatch s i n).lists = s.lists := by unfold doSigWatch; (try dsimp only); (repeat' split) <;> simp
@[simp] theorem doSigWatch_chan (s : S) (i n : Nat) : (doSigWatch s i n).chan = s.chan := by unfold doSigWatch; (try dsimp only); (repeat' split) <;> simp
@[simp] theorem doSigWatch_nchan (s : S) (i n : Nat) : (doSigWatch s i n).nchan = s.nchan := by unfold doSigWatch; (try dsimp only); (repeat' split) <;> simp
@[simp] theorem doSigWatch_mu (s : S) (i n : Nat) : (doSigWatch s i n).mu = s.mu := by unfold doSigWatch; (try dsimp only); (repeat' split) <;> simp
@[simp] theorem doSigWatch_wg (s : S) (i n : Nat) : (doSigWatch s i n).wg = s.wg := by unfold doSigWatch; (try dsimp only); (repeat' split) <;> simp
@[simp] theorem doSigWatch_all (s : S) (i n : Nat) : (doSigWatch s i n).all = s.all := by unfold doSigWatch; (try dsimp only); (repeat' split) <;> simp
@[simp] theorem doSigWatch_allCount (s : S) (i n : Nat) : (doSigWatch s i n).allCount = s.allCount := by unfold doSigWatch; (try dsimp only); (repeat' split) <;> simp
@[simp] theorem doSigWatch_dlq (s : S) (i n : Nat) : (doSigWatch s i n).dlq = s.dlq := by unfold doSigWatch; (try dsimp only); (repeat' split) <;> simp
@[simp] theorem doSigWatch_evw (s : S) (i n : Nat) : (doSigWatch s i n).evw = s.evw := by unfold doSigWatch; (try dsimp only); (repeat' split) <;> simp
@[simp] theorem doSigWatch_armed (s : S) (i n : Nat) : (doSigWatch s i n).armed = s.armed := by unfold doSigWatch; (try dsimp only); (repeat' split) <;> simp
@[simp] theorem doSigWatch_nsleepers (s : S) (i n : Nat) : (doSigWatch s i n).nsleepers = s.nsleepers := by unfold doSigWatch; (try dsimp only); (repeat' split) <;> simp
@[simp] theorem doSigWatch_nlocked (s : S) (i n : Nat) : (doSigWatch s i n).nlocked = s.nlocked := by unfold doSigWatch; (try dsimp only); (repeat' split) <;> simp
@[simp] theorem doSigWatch_nreceivers (s : S) (i n : Nat) : (doSigWatch s i n).nreceivers = s.nreceivers := by unfold doSigWatch; (try dsimp only); (repeat' split) <;> simp
@[simp] theorem doSigWatch_nsenders (s : S) (i n : Nat) : (doSigWatch s i n).nsenders = s.nsenders := by unfold doSigWatch; (try dsimp only); (repeat' split) <;> simp
@[simp] theorem doSigWatch_nwaitgroupers (s : S) (i n : Nat) : (doSigWatch s i n).nwaitgroupers = s.nwaitgroupers := by unfold doSigWatch; (try dsimp only); (repeat' split) <;> simp
@[simp] theorem doSigWatch_ncondwaiters (s : S) (i n : Nat) : (doSigWatch s i n).ncondwaiters = s.ncondwaiters := by unfold doSigWatch; (try dsimp only); (repeat' split) <;> simp
@[simp] theorem doSigWatch_nsuspended (s : S) (i n : Nat) : (doSigWatch s i n).nsuspended = s.nsuspended := by unfold doSigWatch; (try dsimp only); (repeat' split) <;> simp
@[simp] theorem doSigWatch_nevwaiters (s : S) (i n : Nat) : (doSigWatch s i n).nevwaiters = s.nevwaiters := by unfold doSigWatch; (try dsimp only); (repeat' split) <;> simp
@[simp] theorem doSigWatch_nsigwaiters (s : S) (i n : Nat) : (doSigWatch s i n).nsigwaiters = s.nsigwaiters := by unfold doSigWatch; (try dsimp only); (repeat' split) <;> simp
@[simp] theorem doSigWatch_nresumers (s : S) (i n : Nat) : (doSigWatch s i n).nresumers = s.nresumers := by unfold doSigWatch; (try dsimp only); (repeat' split) <;> simp
@[simp] theorem doSigWatch_niowaiters (s : S) (i n : Nat) : (doSigWatch s i n).niowaiters = s.niowaiters := by unfold doSigWatch; (try dsimp only); (repeat' split) <;> simp
@[simp] theorem doSigWatch_pool (s : S) (i n : Nat) : (doSigWatch s i n).pool = s.pool := by unfold doSigWatch; (try dsimp only); (repeat' split) <;> simp
@[simp] theorem doSigWatch_sigqueue (s : S) (i n : Nat) : (doSigWatch s i n).sigqueue = s.sigqueue := by unfold doSigWatch; (try dsimp only); (repeat' split) <;> simp
@[simp] theorem doSigWatch_jobs (s : S) (i n : Nat) : (doSigWatch s i n).jobs = s.jobs := by unfold doSigWatch; (try dsimp only); (repeat' split) <;> simp
@[simp] theorem doSigWatch_clock (s : S) (i n : Nat) : (doSigWatch s i n).clock = s.clock := by unfold doSigWatch; (try dsimp only); (repeat' split) <;> simp
@[simp] theorem doSigWatch_main (s : S) (i n : Nat) : (doSigWatch s i n).main = s.main := by unfold doSigWatch; (try dsimp only); (repeat' split) <;> simp
@[simp] theorem doSigWatch_envAsync (s : S) (i n : Nat) : (doSigWatch s i n).envAsync = s.envAsync := by unfold doSigWatch; (try dsimp only); (repeat' split) <;> simp
@[simp] theorem doSigWatch_envEnabled (s : S) (i n : Nat) : (doSigWatch s i n).envEnabled = s.envEnabled := by unfold doSigWatch; (try dsimp only); (repeat' split) <;> simp
@[simp] theorem doSigWatch_dead (s : S) (i n : Nat) : (doSigWatch s i n).dead = s.dead := by unfold doSigWatch; (try dsimp only); (repeat' split) <;> simp
@[simp] theorem doSigWatch_fault (s : S) (i n : Nat) : (doSigWatch s i n).fault = s.fault := by unfold doSigWatch; (try dsimp only); (repeat' split) <;> simp
@[simp] theorem doSigWatch_log (s : S) (i n : Nat) : (doSigWatch s i n).log = s.log := by unfold doSigWatch; (try dsimp only); (repeat' split) <;> simp
@[simp] theorem doSigUnwatch_sco (s : S) (i n : Nat) : (doSigUnwatch s i n).sco = s.sco := by unfold doSigUnwatch; (try dsimp only); (repeat' split) <;> simp
@[simp] theorem doSigUnwatch_lists (s : S) (i n : Nat) : (doSigUnwatch s i n).lists = s.lists := by unfold doSigUnwatch; (try dsimp only); (repeat' split) <;> simp
@[simp] theorem doSigUnwatch_chan (s : S) (i n : Nat) : (doSigUnwatch s i n).chan = s.chan := by unfold doSigUnwatch; (try dsimp only); (repeat' split) <;> simp
@[simp] theorem doSigUnwatch_nchan (s : S) (i n : Nat) : (doSigUnwatch s i n).nchan = s.nchan := by unfold doSigUnwatch; (try dsimp only); (repeat' split) <;> simp
@[simp] theorem doSigUnwatch_mu (s : S) (i n : Nat) : (doSigUnwatch s i n).mu = s.mu := by unfold doSigUnwatch; (try dsimp only); (repeat' split) <;> simp
@[simp] theorem doSigUnwatch_wg (s : S) (i n : Nat) : (doSigUnwatch s i n).wg = s.wg := by unfold doSigUnwatch; (try dsimp only); (repeat' split) <;> simp
@[simp] theorem doSigUnwatch_all (s : S) (i n : Nat) : (doSigUnwatch s i n).all = s.all := by unfold doSigUnwatch; (try dsimp only); (repeat' split) <;> simp
@[simp] theorem doSigUnwatch_allCount (s : S) (i n : Nat) : (doSigUnwatch s i n).allCount = s.allCount := by unfold doSigUnwatch; (try dsimp only); (repeat' split) <;> simp
@[simp] theorem doSigUnwatch_dlq (s : S) (i n : Nat) : (doSigUnwatch s i n).dlq = s.dlq := by unfold doSigUnwatch; (try dsimp only); (repeat' split) <;> simp
@[simp] theorem doSigUnwatch_evw (s : S) (i n : Nat) : (doSigUnwatch s i n).evw = s.evw := by unfold doSigUnwatch; (try dsimp only); (repeat' split) <;> simp
@[simp] theorem doSigUnwatch_armed (s : S) (i n : Nat) : (doSigUnwatch s i n).armed = s.armed := by unfold doSigUnwatch; (try dsimp only); (repeat' split) <;> simp
@[simp] theorem doSigUnwatch_nsleepers (s : S) (i n : Nat) : (doSigUnwatch s i n).nsleepers = s.nsleepers := by unfold doSigUnwatch; (try dsimp only); (repeat' split) <;> simp
@[simp] theorem doSigUnwatch_nlocked (s : S) (i n : Nat) : (doSigUnwatch s i n).nlocked = s.nlocked := by unfold doSigUnwatch; (try dsimp only); (repeat' split) <;> simp
@[simp] theorem doSigUnwatch_nreceivers (s : S) (i n : Nat) : (doSigUnwatch s i n).nreceivers = s.nreceivers := by unfold doSigUnwatch; (try dsimp only); (repeat' split) <;> simp
@[simp] theorem doSigUnwatch_nsenders (s : S) (i n : Nat) : (doSigUnwatch s i n).nsenders = s.nsenders := by unfold doSigUnwatch; (try dsimp only); (repeat' split) <;> simp
@[simp] theorem doSigUnwatch_nwaitgroupers (s : S) (i n : Nat) : (doSigUnwatch s i n).nwaitgroupers = s.nwaitgroupers := by unfold doSigUnwatch; (try dsimp only); (repeat' split) <;> simp
@[simp] theorem doSigUnwatch_ncondwaiters (s : S) (i n : Nat) : (doSigUnwatch s i n).ncondwaiters = s.ncondwaiters := by unfold doSigUnwatch; (try dsimp only); (repeat' split) <;> simp
@[simp] theorem doSigUnwatch_nsuspended (s : S) (i n : Nat) : (doSigUnwatch s i n).nsuspended = s.nsuspended := by unfold doSigUnwatch; (try dsimp only); (repeat' split) <;> simp
@[simp] theorem doSigUnwatch_nevwaiters (s : S) (i n : Nat) : (doSigUnwatch s i n).nevwaiters = s.nevwaiters := by unfold doSigUnwatch; (try dsimp only); (repeat' split) <;> simp
@[simp] theorem doSigUnwatch_nsigwaiters (s : S) (i n : Nat) : (doSigUnwatch s i n).nsigwaiters = s.nsigwaiters := by unfold doSigUnwatch; (try dsimp only); (repeat' split) <;> simp
@[simp] theorem doSigUnwatch_nresumers (s : S) (i n : Nat) : (doSigUnwatch s i n).nresumers = s.nresumers := by unfold doSigUnwatch; (try dsimp only); (repeat' split) <;> simp
@[simp] theorem doSigUnwatch_niowaiters (s : S) (i n : Nat) : (doSigUnwatch s i n).niowaiters = s.niowaiters := by unfold doSigUnwatch; (try dsimp only); (repeat' split) <;> simp
@[simp] theorem doSigUnwatch_pool (s : S) (i n : Nat) : (doSigUnwatch s i n).pool = s.pool := by unfold doSigUnwatch; (try dsimp only); (repeat' split) <;> simp
@[simp] theorem doSigUnwatch_sigqueue (s : S) (i n : Nat) : (doSigUnwatch s i n).sigqueue = s.sigqueue := by unfold doSigUnwatch; (try dsimp only); (repeat' split) <;> simp
@[simp] theorem doSigUnwatch_jobs (s : S) (i n : Nat) : (doSigUnwatch s i n).jobs = s.jobs := by unfold doSigUnwatch; (try dsimp only); (repeat' split) <;> simp
@[simp] theorem doSigUnwatch_clock (s : S) (i n : Nat) : (doSigUnwatch s i n).clock = s.clock := by unfold doSigUnwatch; (try dsimp only); (repeat' split) <;> simp
@[simp] theorem doSigUnwatch_main (s : S) (i n : Nat) : (doSigUnwatch s i n).main = s.main := by unfold doSigUnwatch; (try dsimp only); (repeat' split) <;> simp
@[simp] theorem doSigUnwatch_envAsync (s : S) (i n : Nat) : (doSigUnwatch s i n).envAsync = s.envAsync := by unfold doSigUnwatch; (try dsimp only); (repeat' split) <;> simp
@[simp] theorem doSigUnwatch_envEnabled (s : S) (i n : Nat) : (doSigUnwatch s i n).envEnabled = s.envEnabled := by unfold doSigUnwatch; (try dsimp only); (repeat' split) <;> simp
@[simp] theorem doSigUnwatch_dead (s : S) (i n : Nat) : (doSigUnwatch s i n).dead = s.dead := by unfold doSigUnwatch; (try dsimp only); (repeat' split) <;> simp
@[simp] theorem doSigUnwatch_fault (s : S) (i n : Nat) : (doSigUnwatch s i n).fault = s.fault := by unfold doSigUnwatch; (try dsimp only); (repeat' split) <;> simp
@[simp] theorem doSigUnwatch_log (s : S) (i n : Nat) : (doSigUnwatch s i n).log = s.log := by unfold doSigUnwatch; (try dsimp only); (repeat' split) <;> simp
@[simp] theorem doWait_lists (s : S) (i fd : Nat) (wr : Bool) (dl : Int) : (doWait s i fd wr dl).lists = s.lists := by unfold doWait; simp
@[simp] theorem doWait_chan (s : S) (i fd : Nat) (wr : Bool) (dl : Int) : (doWait s i fd wr dl).chan = s.chan := by unfold doWait; simp
@[simp] theorem doWait_nchan (s : S) (i fd : Nat) (wr : Bool) (dl : Int) : (doWait s i fd wr dl).nchan = s.nchan := by unfold doWait; simp
@[simp] theorem doWait_mu (s : S) (i fd : Nat) (wr : Bool) (dl : Int) : (doWait s i fd wr dl).mu = s.mu := by unfold doWait; simp
@[simp] theorem doWait_wg (s : S) (i fd : Nat) (wr : Bool) (dl : Int) : (doWait s i fd wr dl).wg = s.wg := by unfold doWait; simp
@[simp] theorem doWait_all (s : S) (i fd : Nat) (wr : Bool) (dl : Int) : (doWait s i fd wr dl).all = s.all := by unfold doWait; simp
@[simp] theorem doWait_allCount (s : S) (i fd : Nat) (wr : Bool) (dl : Int) : (doWait s i fd wr dl).allCount = s.allCount := by unfold doWait; simp
@[simp] theorem doWait_nsleepers (s : S) (i fd : Nat) (wr : Bool) (dl : Int) : (doWait s i fd wr dl).nsleepers = s.nsleepers := by unfold doWait; simp
@[simp] theorem doWait_nlocked (s : S) (i fd : Nat) (wr : Bool) (dl : Int) : (doWait s i fd wr dl).nlocked = s.nlocked := by unfold doWait; simp
@[simp] theorem doWait_nreceivers (s : S) (i fd : Nat) (wr : Bool) (dl : Int) : (doWait s i fd wr dl).nreceivers = s.nreceivers := by unfold doWait; simp
@[simp] theorem doWait_nsenders (s : S) (i fd : Nat) (wr : Bool) (dl : Int) : (doWait s i fd wr dl).nsenders = s.nsenders := by unfold doWait; simp
@[simp] theorem doWait_nwaitgroupers (s : S) (i fd : Nat) (wr : Bool) (dl : Int) : (doWait s i fd wr dl).nwaitgroupers = s.nwaitgroupers := by unfold doWait; simp
@[simp] theorem doWait_ncondwaiters (s : S) (i fd : Nat) (wr : Bool) (dl : Int) : (doWait s i fd wr dl).ncondwaiters = s.ncondwaiters := by unfold doWait; simp
@[simp] theorem doWait_nsuspended (s : S) (i fd : Nat) (wr : Bool) (dl : Int) : (doWait s i fd wr dl).nsuspended = s.nsuspended := by unfold doWait; simp
@[simp] theorem doWait_nsigwaiters (s : S) (i fd : Nat) (wr : Bool) (dl : Int) : (doWait s i fd wr dl).nsigwaiters = s.nsigwaiters := by unfold doWait; simp
@[simp] theorem doWait_nresumers (s : S) (i fd : Nat) (wr : Bool) (dl : Int) : (doWait s i fd wr dl).nresumers = s.nresumers := by unfold doWait; simp
@[simp] theorem doWait_niowaiters (s : S) (i fd : Nat) (wr : Bool) (dl : Int) : (doWait s i fd wr dl).niowaiters = s.niowaiters := by unfold doWait; simp
@[simp] theorem doWait_pool (s : S) (i fd : Nat) (wr : Bool) (dl : Int) : (doWait s i fd wr dl).pool = s.pool := by unfold doWait; simp
@[simp] theorem doWait_sigqueue (s : S) (i fd : Nat) (wr : Bool) (dl : Int) : (doWait s i fd wr dl).sigqueue = s.sigqueue := by unfold doWait; simp
@[simp] theorem doWait_sigwatchers (s : S) (i fd : Nat) (wr : Bool) (dl : Int) : (doWait s i fd wr dl).sigwatchers = s.sigwatchers := by unfold doWait; simp
@[simp] theorem doWait_jobs (s : S) (i fd : Nat) (wr : Bool) (dl : Int) : (doWait s i fd wr dl).jobs = s.jobs := by unfold doWait; simp
@[simp] theorem doWait_clock (s : S) (i fd : Nat) (wr : Bool) (dl : Int) : (doWait s i fd wr dl).clock = s.clock := by unfold doWait; simp
@[simp] theorem doWait_main (s : S) (i fd : Nat) (wr : Bool) (dl : Int) : (doWait s i fd wr dl).main = s.main := by unfold doWait; simp
@[simp] theorem doWait_envAsync (s : S) (i fd : Nat) (wr : Bool) (dl : Int) : (doWait s i fd wr dl).envAsync = s.envAsync := by unfold doWait; simp
@[simp] theorem doWait_envEnabled (s : S) (i fd : Nat) (wr : Bool) (dl : Int) : (doWait s i fd wr dl).envEnabled = s.envEnabled := by unfold doWait; simp
@[simp] theorem doWait_dead (s : S) (i fd : Nat) (wr : Bool) (dl : Int) : (doWait s i fd wr dl).dead = s.dead := by unfold doWait; simp
@[simp] theorem doWait_fault (s : S) (i fd : Nat) (wr : Bool) (dl : Int) : (doWait s i fd wr dl).fault = s.fault := by unfold doWait; simp
@[simp] theorem doWait_log (s : S) (i fd : Nat) (wr : Bool) (dl : Int) : (doWait s i fd wr dl).log = s.log := by unfold doWait; simp
@[simp] theorem doCpop_sco (s : S) (i : Nat) (e : Bool) : (doCpop s i e).sco = s.sco := by unfold doCpop; (try dsimp only); (repeat' split) <;> simp
@[simp] theorem doCpop_lists (s : S) (i : Nat) (e : Bool) : (doCpop s i e).lists = s.lists := by unfold doCpop; (try dsimp only); (repeat' split) <;> simp
@[simp] theorem doCpop_chan (s : S) (i : Nat) (e : Bool) : (doCpop s i e).chan = s.chan := by unfold doCpop; (try dsimp only); (repeat' split) <;> simp
@[simp] theorem doCpop_nchan (s : S) (i : Nat) (e : Bool) : (doCpop s i e).nchan = s.nchan := by unfold doCpop; (try dsimp only); (repeat' split) <;> simp
@[simp] theorem doCpop_mu (s : S) (i : Nat) (e : Bool) : (doCpop s i e).mu = s.mu := by unfold doCpop; (try dsimp only); (repeat' split) <;> simp
@[simp] theorem doCpop_wg (s : S) (i : Nat) (e : Bool) : (doCpop s i e).wg = s.wg := by unfold doCpop; (try dsimp only); (repeat' split) <;> simp
@[simp] theorem doCpop_all (s : S) (i : Nat) (e : Bool) : (doCpop s i e).all = s.all := by unfold doCpop; (try dsimp only); (repeat' split) <;> simp
@[simp] theorem doCpop_allCount (s : S) (i : Nat) (e : Bool) : (doCpop s i e).allCount = s.allCount := by unfold doCpop; (try dsimp only); (repeat' split) <;> simp
@[simp] theorem doCpop_dlq (s : S) (i : Nat) (e : Bool) : (doCpop s i e).dlq = s.dlq := by unfold doCpop; (try dsimp only); (repeat' split) <;> simp
@[simp] theorem doCpop_evw (s : S) (i : Nat) (e : Bool) : (doCpop s i e).evw = s.evw := by unfold doCpop; (try dsimp only); (repeat' split) <;> simp
@[simp] theorem doCpop_armed (s : S) (i : Nat) (e : Bool) : (doCpop s i e).armed = s.armed := by unfold doCpop; (try dsimp only); (repeat' split) <;> simp
@[simp] theorem doCpop_nsleepers (s : S) (i : Nat) (e : Bool) : (doCpop s i e).nsleepers = s.nsleepers := by unfold doCpop; (try dsimp only); (repeat' split) <;> simp
@[simp] theorem doCpop_nlocked (s : S) (i : Nat) (e : Bool) : (doCpop s i e).nlocked = s.nlocked := by unfold doCpop; (try dsimp only); (repeat' split) <;> simp
@[simp] theorem doCpop_nreceivers (s : S) (i : Nat) (e : Bool) : (doCpop s i e).nreceivers = s.nreceivers := by unfold doCpop; (try dsimp only); (repeat' split) <;> simp
@[simp] theorem doCpop_nsenders (s : S) (i : Nat) (e : Bool) : (doCpop s i e).nsenders = s.nsenders := by unfold doCpop; (try dsimp only); (repeat' split) <;> simp
@[simp] theorem doCpop_nwaitgroupers (s : S) (i : Nat) (e : Bool) : (doCpop s i e).nwaitgroupers = s.nwaitgroupers := by unfold doCpop; (try dsimp only); (repeat' split) <;> simp
@[simp] theorem doCpop_ncondwaiters (s : S) (i : Nat) (e : Bool) : (doCpop s i e).ncondwaiters = s.ncondwaiters := by unfold doCpop; (try dsimp only); (repeat' split) <;> simp
@[simp] theorem doCpop_nsuspended (s : S) (i : Nat) (e : Bool) : (doCpop s i e).nsuspended = s.nsuspended := by unfold doCpop; (try dsimp only); (repeat' split) <;> simp
@[simp] theorem doCpop_nevwaiters (s : S) (i : Nat) (e : Bool) : (doCpop s i e).nevwaiters = s.nevwaiters := by unfold doCpop; (try dsimp only); (repeat' split) <;> simp
@[simp] theorem doCpop_nsigwaiters (s : S) (i : Nat) (e : Bool) : (doCpop s i e).nsigwaiters = s.nsigwaiters := by unfold doCpop; (try dsimp only); (repeat' split) <;> simp
@[simp] theorem doCpop_nresumers (s : S) (i : Nat) (e : Bool) : (doCpop s i e).nresumers = s.nresumers := by unfold doCpop; (try dsimp only); (repeat' split) <;> simp
@[simp] theorem doCpop_niowaiters (s : S) (i : Nat) (e : Bool) : (doCpop s i e).niowaiters = s.niowaiters := by unfold doCpop; (try dsimp only); (repeat' split) <;> simp
@[simp] theorem doCpop_pool (s : S) (i : Nat) (e : Bool) : (doCpop s i e).pool = s.pool := by unfold doCpop; (try dsimp only); (repeat' split) <;> simp
@[simp] theorem doCpop_sigqueue (s : S) (i : Nat) (e : Bool) : (doCpop s i e).sigqueue = s.sigqueue := by unfold doCpop; (try dsimp only); (repeat' split) <;> simp
@[simp] theorem doCpop_sigwatchers (s : S) (i : Nat) (e : Bool) : (doCpop s i e).sigwatchers = s.sigwatchers := by unfold doCpop; (try dsimp only); (repeat' split) <;> simp
@[simp] theorem doCpop_jobs (s : S) (i : Nat) (e : Bool) : (doCpop s i e).jobs = s.jobs := by unfold doCpop; (try dsimp only); (repeat' split) <;> simp
@[simp] theorem doCpop_clock (s : S) (i : Nat) (e : Bool) : (doCpop s i e).clock = s.clock := by unfold doCpop; (try dsimp only); (repeat' split) <;> simp
@[simp] theorem doCpop_main (s : S) (i : Nat) (e : Bool) : (doCpop s i e).main = s.main := by unfold doCpop; (try dsimp only); (repeat' split) <;> simp
@[simp] theorem doCpop_envAsync (s : S) (i : Nat) (e : Bool) : (doCpop s i e).envAsync = s.envAsync := by unfold doCpop; (try dsimp only); (repeat' split) <;> simp
@[simp] theorem doCpop_envEnabled (s : S) (i : Nat) (e : Bool) : (doCpop s i e).envEnabled = s.envEnabled := by unfold doCpop; (try dsimp only); (repeat' split) <;> simp
@[simp] theorem doCpop_dead (s : S) (i : Nat) (e : Bool) : (doCpop s i e).dead = s.dead := by unfold doCpop; (try dsimp only); (repeat' split) <;> simp
@[simp] theorem doGenYield_nchan (s : S) (i : Nat) (m : Msg) (dl : Int) : (doGenYield s i m dl).nchan = s.nchan := by unfold doGenYield; (try dsimp only); (repeat' split) <;> simp
@[simp] theorem doGenYield_mu (s : S) (i : Nat) (m : Msg) (dl : Int) : (doGenYield s i m dl).mu = s.mu := by unfold doGenYield; (try dsimp only); (repeat' split) <;> simp
@[simp] theorem doGenYield_wg (s : S) (i : Nat) (m : Msg) (dl : Int) : (doGenYield s i m dl).wg = s.wg := by unfold doGenYield; (try dsimp only); (repeat' split) <;> simp
@[simp] theorem doGenYield_all (s : S) (i : Nat) (m : Msg) (dl : Int) : (doGenYield s i m dl).all = s.all := by unfold doGenYield; (try dsimp only); (repeat' split) <;> simp
@[simp] theorem doGenYield_allCount (s : S) (i : Nat) (m : Msg) (dl : Int) : (doGenYield s i m dl).allCount = s.allCount := by unfold doGenYield; (try dsimp only); (repeat' split) <;> simp
@[simp] theorem doGenYield_evw (s : S) (i : Nat) (m : Msg) (dl : Int) : (doGenYield s i m dl).evw = s.evw := by unfold doGenYield; (try dsimp only); (repeat' split) <;> simp
@[simp] theorem doGenYield_armed (s : S) (i : Nat) (m : Msg) (dl : Int) : (doGenYield s i m dl).armed = s.armed := by unfold doGenYield; (try dsimp only); (repeat' split) <;> simp
@[simp] theorem doGenYield_nsleepers (s : S) (i : Nat) (m : Msg) (dl : Int) : (doGenYield s i m dl).nsleepers = s.nsleepers := by unfold doGenYield; (try dsimp only); (repeat' split) <;> simp
@[simp] theorem doGenYield_nlocked (s : S) (i : Nat) (m : Msg) (dl : Int) : (doGenYield s i m dl).nlocked = s.nlocked := by unfold doGenYield; (try dsimp only); (repeat' split) <;> simp
@[simp] theorem doGenYield_nreceivers (s : S) (i : Nat) (m : Msg) (dl : Int) : (doGenYield s i m dl).nreceivers = s.nreceivers := by unfold doGenYield; (try dsimp only); (repeat' split) <;> simp
@[simp] theorem doGenYield_nwaitgroupers (s : S) (i : Nat) (m : Msg) (dl : Int) : (doGenYield s i m dl).nwaitgroupers = s.nwaitgroupers := by unfold doGenYield; (try dsimp only); (repeat' split) <;> simp
@[simp] theorem doGenYield_ncondwaiters (s : S) (i : Nat) (m : Msg) (dl : Int) : (doGenYield s i m dl).ncondwaiters = s.ncondwaiters := by unfold doGenYield; (try dsimp only); (repeat' split) <;> simp
@[simp] theorem doGenYield_nsuspended (s : S) (i : Nat) (m : Msg) (dl : Int) : (doGenYield s i m dl).nsuspended = s.nsuspended := by unfold doGenYield; (try dsimp only); (repeat' split) <;> simp
@[simp] theorem doGenYield_nevwaiters (s : S) (i : Nat) (m : Msg) (dl : Int) : (doGenYield s i m dl).nevwaiters = s.nevwaiters := by unfold doGenYield; (try dsimp only); (repeat' split) <;> simp
@[simp] theorem doGenYield_nsigwaiters (s : S) (i : Nat) (m : Msg) (dl : Int) : (doGenYield s i m dl).nsigwaiters = s.nsigwaiters := by unfold doGenYield; (try dsimp only); (repeat' split) <;> simp
@[simp] theorem doGenYield_nresumers (s : S) (i : Nat) (m : Msg) (dl : Int) : (doGenYield s i m dl).nresumers = s.nresumers := by unfold doGenYield; (try dsimp only); (repeat' split) <;> simp
@[simp] theorem doGenYield_niowaiters (s : S) (i : Nat) (m : Msg) (dl : Int) : (doGenYield s i m dl).niowaiters = s.niowaiters := by unfold doGenYield; (try dsimp only); (repeat' split) <;> simp
@[simp] theorem doGenYield_pool (s : S) (i : Nat) (m : Msg) (dl : Int) : (doGenYield s i m dl).pool = s.pool := by unfold doGenYield; (try dsimp only); (repeat' split) <;> simp
@[simp] theorem doGenYield_sigqueue (s : S) (i : Nat) (m : Msg) (dl : Int) : (doGenYield s i m dl).sigqueue = s.sigqueue := by unfold doGenYield; (try dsimp only); (repeat' split) <;> simp
@[simp] theorem doGenYield_sigwatchers (s : S) (i : Nat) (m : Msg) (dl : Int) : (doGenYield s i m dl).sigwatchers = s.sigwatchers := by unfold doGenYield; (try dsimp only); (repeat' split) <;> simp
@[simp] theorem doGenYield_jobs (s : S) (i : Nat) (m : Msg) (dl : Int) : (doGenYield s i m dl).jobs = s.jobs := by unfold doGenYield; (try dsimp only); (repeat' split) <;> simp
@[simp] theorem doGenYield_clock (s : S) (i : Nat) (m : Msg) (dl : Int) : (doGenYield s i m dl).clock = s.clock := by unfold doGenYield; (try dsimp only); (repeat' split) <;> simp
@[simp] theorem doGenYield_main (s : S) (i : Nat) (m : Msg) (dl : Int) : (doGenYield s i m dl).main = s.main := by unfold doGenYield; (try dsimp only); (repeat' split) <;> simp
@[simp] theorem doGenYield_envAsync (s : S) (i : Nat) (m : Msg) (dl : Int) : (doGenYield s i m dl).envAsync = s.envAsync := by unfold doGenYield; (try dsimp only); (repeat' split) <;> simp
@[simp] theorem doGenYield_envEnabled (s : S) (i : Nat) (m : Msg) (dl : Int) : (doGenYield s i m dl).envEnabled = s.envEnabled := by unfold doGenYield; (try dsimp only); (repeat' split) <;> simp
@[simp] theorem doGenYield_dead (s : S) (i : Nat) (m : Msg) (dl : Int) : (doGenYield s i m dl).dead = s.dead := by unfold doGenYield; (try dsimp only); (repeat' split) <;> simp
@[simp] theorem noteWithdraw_sco (s : S) (i c : Nat) : (noteWithdraw s i c).sco = s.sco := by unfold noteWithdraw; (try dsimp only); (repeat' split) <;> simp
@[simp] theorem noteWithdraw_co (s : S) (i c : Nat) : (noteWithdraw s i c).co = s.co := by unfold noteWithdraw; (try dsimp only); (repeat' split) <;> simp
@[simp] theorem noteWithdraw_lists (s : S) (i c : Nat) : (noteWithdraw s i c).lists = s.lists := by unfold noteWithdraw; (try dsimp only); (repeat' split) <;> simp
@[simp] theorem noteWithdraw_chan (s : S) (i c : Nat) : (noteWithdraw s i c).chan = s.chan := by unfold noteWithdraw; (try dsimp only); (repeat' split) <;> simp
@[simp] theorem noteWithdraw_nchan (s : S) (i c : Nat) : (noteWithdraw s i c).nchan = s.nchan := by unfold noteWithdraw; (try dsimp only); (repeat' split) <;> simp
@[simp] theorem noteWithdraw_mu (s : S) (i c : Nat) : (noteWithdraw s i c).mu = s.mu := by unfold noteWithdraw; (try dsimp only); (repeat' split) <;> simp
@[simp] theorem noteWithdraw_wg (s : S) (i c : Nat) : (noteWithdraw s i c).wg = s.wg := by unfold noteWithdraw; (try dsimp only); (repeat' split) <;> simp
@[simp] theorem noteWithdraw_all (s : S) (i c : Nat) : (noteWithdraw s i c).all = s.all := by unfold noteWithdraw; (try dsimp only); (repeat' split) <;> simp
@[simp] theorem noteWithdraw_allCount (s : S) (i c : Nat) : (noteWithdraw s i c).allCount = s.allCount := by unfold noteWithdraw; (try dsimp only); (repeat' split) <;> simp
@[simp] theorem noteWithdraw_dlq (s : S) (i c : Nat) : (noteWithdraw s i c).dlq = s.dlq := by unfold noteWithdraw; (try dsimp only); (repeat' split) <;> simp
@[simp] theorem noteWithdraw_evw (s : S) (i c : Nat) : (noteWithdraw s i c).evw = s.evw := by unfold noteWithdraw; (try dsimp only); (repeat' split) <;> simp
@[simp] theorem noteWithdraw_armed (s : S) (i c : Nat) : (noteWithdraw s i c).armed = s.armed := by unfold noteWithdraw; (try dsimp only); (repeat' split) <;> simp
@[simp] theorem noteWithdraw_nsleepers (s : S) (i c : Nat) : (noteWithdraw s i c).nsleepers = s.nsleepers := by unfold noteWithdraw; (try dsimp only); (repeat' split) <;> simp
@[simp] theorem noteWithdraw_nlocked (s : S) (i c : Nat) : (noteWithdraw s i c).nlocked = s.nlocked := by unfold noteWithdraw; (try dsimp only); (repeat' split) <;> simp
@[simp] theorem noteWithdraw_nreceivers (s : S) (i c : Nat) : (noteWithdraw s i c).nreceivers = s.nreceivers := by unfold noteWithdraw; (try dsimp only); (repeat' split) <;> simp
@[simp] theorem noteWithdraw_nsenders (s : S) (i c : Nat) : (noteWithdraw s i c).nsenders = s.nsenders := by unfold noteWithdraw; (try dsimp only); (repeat' split) <;> simp
@[simp] theorem noteWithdraw_nwaitgroupers (s : S) (i c : Nat) : (noteWithdraw s i c).nwaitgroupers = s.nwaitgroupers := by unfold noteWithdraw; (try dsimp only); (repeat' split) <;> simp
@[simp] theorem noteWithdraw_ncondwaiters (s : S) (i c : Nat) : (noteWithdraw s i c).ncondwaiters = s.ncondwaiters := by unfold noteWithdraw; (try dsimp only); (repeat' split) <;> simp
@[simp] theorem noteWithdraw_nsuspended (s : S) (i c : Nat) : (noteWithdraw s i c).nsuspended = s.nsuspended := by unfold noteWithdraw; (try dsimp only); (repeat' split) <;> simp
@[simp] theorem noteWithdraw_nevwaiters (s : S) (i c : Nat) : (noteWithdraw s i c).nevwaiters = s.nevwaiters := by unfold noteWithdraw; (try dsimp only); (repeat' split) <;> simp
@[simp] theorem noteWithdraw_nsigwaiters (s : S) (i c : Nat) : (noteWithdraw s i c).nsigwaiters = s.nsigwaiters := by unfold noteWithdraw; (try dsimp only); (repeat' split) <;> simp
@[simp] theorem noteWithdraw_nresumers (s : S) (i c : Nat) : (noteWithdraw s i c).nresumers = s.nresumers := by unfold noteWithdraw; (try dsimp only); (repeat' split) <;> simp
@[simp] theorem noteWithdraw_niowaiters (s : S) (i c : Nat) : (noteWithdraw s i c).niowaiters = s.niowaiters := by unfold noteWithdraw; (try dsimp only); (repeat' split) <;> simp
@[simp] theorem noteWithdraw_pool (s : S) (i c : Nat) : (noteWithdraw s i c).pool = s.pool := by unfold noteWithdraw; (try dsimp only); (repeat' split) <;> simp
@[simp] theorem noteWithdraw_sigqueue (s : S) (i c : Nat) : (noteWithdraw s i c).sigqueue = s.sigqueue := by unfold noteWithdraw; (try dsimp only); (repeat' split) <;> simp
@[simp] theorem noteWithdraw_sigwatchers (s : S) (i c : Nat) : (noteWithdraw s i c).sigwatchers = s.sigwatchers := by unfold noteWithdraw; (try dsimp only); (repeat' split) <;> simp
@[simp] theorem noteWithdraw_jobs (s : S) (i c : Nat) : (noteWithdraw s i c).jobs = s.jobs := by unfold noteWithdraw; (try dsimp only); (repeat' split) <;> simp
@[simp] theorem noteWithdraw_clock (s : S) (i c : Nat) : (noteWithdraw s i c).clock = s.clock := by unfold noteWithdraw; (try dsimp only); (repeat' split) <;> simp
@[simp] theorem noteWithdraw_main (s : S) (i c : Nat) : (noteWithdraw s i c).main = s.main := by unfold noteWithdraw; (try dsimp only); (repeat' split) <;> simp
@[simp] theorem noteWithdraw_envAsync (s : S) (i c : Nat) : (noteWithdraw s i c).envAsync = s.envAsync := by unfold noteWithdraw; (try dsimp only); (repeat' split) <;> simp
@[simp] theorem noteWithdraw_envEnabled (s : S) (i c : Nat) : (noteWithdraw s i c).envEnabled = s.envEnabled := by unfold noteWithdraw; (try dsimp only); (repeat' split) <;> simp
@[simp] theorem noteWithdraw_dead (s : S) (i c : Nat) : (noteWithdraw s i c).dead = s.dead := by unfold noteWithdraw; (try dsimp only); (repeat' split) <;> simp
@[simp] theorem noteWithdraw_fault (s : S) (i c : Nat) : (noteWithdraw s i c).fault = s.fault := by unfold noteWithdraw; (try dsimp only); (repeat' split) <;> simp
@[simp] theorem preBlk_sco (s : S) (i : Nat) (b : Blk) : (preBlk s i b).sco = s.sco := by unfold preBlk; (repeat' split) <;> simp
@[simp] theorem preBlk_co (s : S) (i : Nat) (b : Blk) : (preBlk s i b).co = s.co := by unfold preBlk; (repeat' split) <;> simp
@[simp] theorem preBlk_lists (s : S) (i : Nat) (b : Blk) : (preBlk s i b).lists = s.lists := by unfold preBlk; (repeat' split) <;> simp
@[simp] theorem preBlk_chan (s : S) (i : Nat) (b : Blk) : (preBlk s i b).chan = s.chan := by unfold preBlk; (repeat' split) <;> simp
@[simp] theorem preBlk_nchan (s : S) (i : Nat) (b : Blk) : (preBlk s i b).nchan = s.nchan := by unfold preBlk; (repeat' split) <;> simp
@[simp] theorem preBlk_mu (s : S) (i : Nat) (b : Blk) : (preBlk s i b).mu = s.mu := by unfold preBlk; (repeat' split) <;> simp
@[simp] theorem preBlk_wg (s : S) (i : Nat) (b : Blk) : (preBlk s i b).wg = s.wg := by unfold preBlk; (repeat' split) <;> simp
@[simp] theorem preBlk_all (s : S) (i : Nat) (b : Blk) : (preBlk s i b).all = s.all := by unfold preBlk; (repeat' split) <;> simp
@[simp] theorem preBlk_allCount (s : S) (i : Nat) (b : Blk) : (preBlk s i b).allCount = s.allCount := by unfold preBlk; (repeat' split) <;> simp
@[simp] theorem preBlk_dlq (s : S) (i : Nat) (b : Blk) : (preBlk s i b).dlq = s.dlq := by unfold preBlk; (repeat' split) <;> simp
@[simp] theorem preBlk_evw (s : S) (i : Nat) (b : Blk) : (preBlk s i b).evw = s.evw := by unfold preBlk; (repeat' split) <;> simp
@[simp] theorem preBlk_armed (s : S) (i : Nat) (b : Blk) : (preBlk s i b).armed = s.armed := by unfold preBlk; (repeat' split) <;> simp
@[simp] theorem preBlk_nsleepers (s : S) (i : Nat) (b : Blk) : (preBlk s i b).nsleepers = s.nsleepers := by unfold preBlk; (repeat' split) <;> simp
@[simp] theorem preBlk_nlocked (s : S) (i : Nat) (b : Blk) : (preBlk s i b).nlocked = s.nlocked := by unfold preBlk; (repeat' split) <;> simp
@[simp] theorem preBlk_nreceivers (s : S) (i : Nat) (b : Blk) : (preBlk s i b).nreceivers = s.nreceivers := by unfold preBlk; (repeat' split) <;> simp
@[simp] theorem preBlk_nsenders (s : S) (i : Nat) (b : Blk) : (preBlk s i b).nsenders = s.nsenders := by unfold preBlk; (repeat' split) <;> simp
@[simp] theorem preBlk_nwaitgroupers (s : S) (i : Nat) (b : Blk) : (preBlk s i b).nwaitgroupers = s.nwaitgroupers := by unfold preBlk; (repeat' split) <;> simp
@[simp] theorem preBlk_ncondwaiters (s : S) (i : Nat) (b : Blk) : (preBlk s i b).ncondwaiters = s.ncondwaiters := by unfold preBlk; (repeat' split) <;> simp
@[simp] theorem preBlk_nsuspended (s : S) (i : Nat) (b : Blk) : (preBlk s i b).nsuspended = s.nsuspended := by unfold preBlk; (repeat' split) <;> simp
@[simp] theorem preBlk_nevwaiters (s : S) (i : Nat) (b : Blk) : (preBlk s i b).nevwaiters = s.nevwaiters := by unfold preBlk; (repeat' split) <;> simp
@[simp] theorem preBlk_nsigwaiters (s : S) (i : Nat) (b : Blk) : (preBlk s i b).nsigwaiters = s.nsigwaiters := by unfold preBlk; (repeat' split) <;> simp
@[simp] theorem preBlk_nresumers (s : S) (i : Nat) (b : Blk) : (preBlk s i b).nresumers = s.nresumers := by unfold preBlk; (repeat' split) <;> simp
@[simp] theorem preBlk_niowaiters (s : S) (i : Nat) (b : Blk) : (preBlk s i b).niowaiters = s.niowaiters := by unfold preBlk; (repeat' split) <;> simp
@[simp] theorem preBlk_pool (s : S) (i : Nat) (b : Blk) : (preBlk s i b).pool = s.pool := by unfold preBlk; (repeat' split) <;> simp
@[simp] theorem preBlk_sigqueue (s : S) (i : Nat) (b : Blk) : (preBlk s i b).sigqueue = s.sigqueue := by unfold preBlk; (repeat' split) <;> simp
@[simp] theorem preBlk_sigwatchers (s : S) (i : Nat) (b : Blk) : (preBlk s i b).sigwatchers = s.sigwatchers := by unfold preBlk; (repeat' split) <;> simp
@[simp] theorem preBlk_jobs (s : S) (i : Nat) (b : Blk) : (preBlk s i b).jobs = s.jobs := by unfold preBlk; (repeat' split) <;> simp
@[simp] theorem preBlk_clock (s : S) (i : Nat) (b : Blk) : (preBlk s i b).clock = s.clock := by unfold preBlk; (repeat' split) <;> simp
@[simp] theorem preBlk_main (s : S) (i : Nat) (b : Blk) : (preBlk s i b).main = s.main := by unfold preBlk; (repeat' split) <;> simp
@[simp] theorem preBlk_envAsync (s : S) (i : Nat) (b : Blk) : (preBlk s i b).envAsync = s.envAsync := by unfold preBlk; (repeat' split) <;> simp
@[simp] theorem preBlk_envEnabled (s : S) (i : Nat) (b : Blk) : (preBlk s i b).envEnabled = s.envEnabled := by unfold preBlk; (repeat' split) <;> simp
@[simp] theorem preBlk_dead (s : S) (i : Nat) (b : Blk) : (preBlk s i b).dead = s.dead := by unfold preBlk; (repeat' split) <;> simp
@[simp] theorem preBlk_fault (s : S) (i : Nat) (b : Blk) : (preBlk s i b).fault = s.fault := by unfold preBlk; (repeat' split) <;> simp
@[simp] theorem doRelock_chan (s : S) (i m : Nat) : (doRelock s i m).chan = s.chan := by unfold doRelock; (try dsimp only); (repeat' split) <;> simp
@[simp] theorem doRelock_nchan (s : S) (i m : Nat) : (doRelock s i m).nchan = s.nchan := by unfold doRelock; (try dsimp only); (repeat' split) <;> simp
@[simp] theorem doRelock_wg (s : S) (i m : Nat) : (doRelock s i m).wg = s.wg := by unfold doRelock; (try dsimp only); (repeat' split) <;> simp
@[simp] theorem doRelock_all (s : S) (i m : Nat) : (doRelock s i m).all = s.all := by unfold doRelock; (try dsimp only); (repeat' split) <;> simp
@[simp] theorem doRelock_allCount (s : S) (i m : Nat) : (doRelock s i m).allCount = s.allCount := by unfold doRelock; (try dsimp only); (repeat' split) <;> simp
@[simp] theorem doRelock_evw (s : S) (i m : Nat) : (doRelock s i m).evw = s.evw := by unfold doRelock; (try dsimp only); (repeat' split) <;> simp
@[simp] theorem doRelock_armed (s : S) (i m : Nat) : (doRelock s i m).armed = s.armed := by unfold doRelock; (try dsimp only); (repeat' split) <;> simp
@[simp] theorem doRelock_nsleepers (s : S) (i m : Nat) : (doRelock s i m).nsleepers = s.nsleepers := by unfold doRelock; (try dsimp only); (repeat' split) <;> simp
@[simp] theorem doRelock_nreceivers (s : S) (i m : Nat) : (doRelock s i m).nreceivers = s.nreceivers := by unfold doRelock; (try dsimp only); (repeat' split) <;> simp
@[simp] theorem doRelock_nsenders (s : S) (i m : Nat) : (doRelock s i m).nsenders = s.nsenders := by unfold doRelock; (try dsimp only); (repeat' split) <;> simp
@[simp] theorem doRelock_nwaitgroupers (s : S) (i m : Nat) : (doRelock s i m).nwaitgroupers = s.nwaitgroupers := by unfold doRelock; (try dsimp only); (repeat' split) <;> simp
@[simp] theorem doRelock_ncondwaiters (s : S) (i m : Nat) : (doRelock s i m).ncondwaiters = s.ncondwaiters := by unfold doRelock; (try dsimp only); (repeat' split) <;> simp
@[simp] theorem doRelock_nsuspended (s : S) (i m : Nat) : (doRelock s i m).nsuspended = s.nsuspended := by unfold doRelock; (try dsimp only); (repeat' split) <;> simp
@[simp] theorem doRelock_nevwaiters (s : S) (i m : Nat) : (doRelock s i m).nevwaiters = s.nevwaiters := by unfold doRelock; (try dsimp only); (repeat' split) <;> simp
@[simp] theorem doRelock_nsigwaiters (s : S) (i m : Nat) : (doRelock s i m).nsigwaiters = s.nsigwaiters := by unfold doRelock; (try dsimp only); (repeat' split) <;> simp
@[simp] theorem doRelock_nresumers (s : S) (i m : Nat) : (doRelock s i m).nresumers = s.nresumers := by unfold doRelock; (try dsimp only); (repeat' split) <;> simp
@[simp] theorem doRelock_niowaiters (s : S) (i m : Nat) : (doRelock s i m).niowaiters = s.niowaiters := by unfold doRelock; (try dsimp only); (repeat' split) <;> simp
@[simp] theorem doRelock_pool (s : S) (i m : Nat) : (doRelock s i m).pool = s.pool := by unfold doRelock; (try dsimp only); (repeat' split) <;> simp
@[simp] theorem doRelock_sigqueue (s : S) (i m : Nat) : (doRelock s i m).sigqueue = s.sigqueue := by unfold doRelock; (try dsimp only); (repeat' split) <;> simp
@[simp] theorem doRelock_sigwatchers (s : S) (i m : Nat) : (doRelock s i m).sigwatchers = s.sigwatchers := by unfold doRelock; (try dsimp only); (repeat' split) <;> simp
@[simp] theorem doRelock_jobs (s : S) (i m : Nat) : (doRelock s i m).jobs = s.jobs := by unfold doRelock; (try dsimp only); (repeat' split) <;> simp
@[simp] theorem doRelock_clock (s : S) (i m : Nat) : (doRelock s i m).clock = s.clock := by unfold doRelock; (try dsimp only); (repeat' split) <;> simp
@[simp] theorem doRelock_main (s : S) (i m : Nat) : (doRelock s i m).main = s.main := by unfold doRelock; (try dsimp only); (repeat' split) <;> simp
@[simp] theorem doRelock_envAsync (s : S) (i m : Nat) : (doRelock s i m).envAsync = s.envAsync := by unfold doRelock; (try dsimp only); (repeat' split) <;> simp
@[simp] theorem doRelock_envEnabled (s : S) (i m : Nat) : (doRelock s i m).envEnabled = s.envEnabled := by unfold doRelock; (try dsimp only); (repeat' split) <;> simp
@[simp] theorem doRelock_dead (s : S) (i m : Nat) : (doRelock s i m).dead = s.dead := by unfold doRelock; (try dsimp only); (repeat' split) <;> simp
@[simp] theorem doRelock_fault (s : S) (i m : Nat) : (doRelock s i m).fault = s.fault := by unfold doRelock; (try dsimp only); (repeat' split) <;> simp
@[simp] theorem exitNotify_nchan (s : S) (i : Nat) (a : Bool) : (exitNotify s i a).nchan = s.nchan := by unfold exitNotify; dsimp only; (repeat' split) <;> simp
@[simp] theorem exitNotify_mu (s : S) (i : Nat) (a : Bool) : (exitNotify s i a).mu = s.mu := by unfold exitNotify; dsimp only; (repeat' split) <;> simp
@[simp] theorem exitNotify_wg (s : S) (i : Nat) (a : Bool) : (exitNotify s i a).wg = s.wg := by unfold exitNotify; dsimp only; (repeat' split) <;> simp
@[simp] theorem exitNotify_dlq (s : S) (i : Nat) (a : Bool) : (exitNotify s i a).dlq = s.dlq := by unfold exitNotify; dsimp only; (repeat' split) <;> simp
@[simp] theorem exitNotify_evw (s : S) (i : Nat) (a : Bool) : (exitNotify s i a).evw = s.evw := by unfold exitNotify; dsimp only; (repeat' split) <;> simp
@[simp] theorem exitNotify_armed (s : S) (i : Nat) (a : Bool) : (exitNotify s i a).armed = s.armed := by unfold exitNotify; dsimp only; (repeat' split) <;> simp
@[simp] theorem exitNotify_nsleepers (s : S) (i : Nat) (a : Bool) : (exitNotify s i a).nsleepers = s.nsleepers := by unfold exitNotify; dsimp only; (repeat' split) <;> simp
@[simp] theorem exitNotify_nlocked (s : S) (i : Nat) (a : Bool) : (exitNotify s i a).nlocked = s.nlocked := by unfold exitNotify; dsimp only; (repeat' split) <;> simp
@[simp] theorem exitNotify_nreceivers (s : S) (i : Nat) (a : Bool) : (exitNotify s i a).nreceivers = s.nreceivers := by unfold exitNotify; dsimp only; (repeat' split) <;> simp
@[simp] theorem exitNotify_nsenders (s : S) (i : Nat) (a : Bool) : (exitNotify s i a).nsenders = s.nsenders := by unfold exitNotify; dsimp only; (repeat' split) <;> simp
@[simp] theorem exitNotify_nwaitgroupers (s : S) (i : Nat) (a : Bool) : (exitNotify s i a).nwaitgroupers = s.nwaitgroupers := by unfold exitNotify; dsimp only; (repeat' split) <;> simp
@[simp] theorem exitNotify_ncondwaiters (s : S) (i : Nat) (a : Bool) : (exitNotify s i a).ncondwaiters = s.ncondwaiters := by unfold exitNotify; dsimp only; (repeat' split) <;> simp
@[simp] theorem exitNotify_nsuspended (s : S) (i : Nat) (a : Bool) : (exitNotify s i a).nsuspended = s.nsuspended := by unfold exitNotify; dsimp only; (repeat' split) <;> simp
@[simp] theorem exitNotify_nevwaiters (s : S) (i : Nat) (a : Bool) : (exitNotify s i a).nevwaiters = s.nevwaiters := by unfold exitNotify; dsimp only; (repeat' split) <;> simp
@[simp] theorem exitNotify_nsigwaiters (s : S) (i : Nat) (a : Bool) : (exitNotify s i a).nsigwaiters = s.nsigwaiters := by unfold exitNotify; dsimp only; (repeat' split) <;> simp
@[simp] theorem exitNotify_niowaiters (s : S) (i : Nat) (a : Bool) : (exitNotify s i a).niowaiters = s.niowaiters := by unfold exitNotify; dsimp only; (repeat' split) <;> simp
@[simp] theorem exitNotify_pool (s : S) (i : Nat) (a : Bool) : (exitNotify s i a).pool = s.pool := by unfold exitNotify; dsimp only; (repeat' split) <;> simp
@[simp] theorem exitNotify_sigqueue (s : S) (i : Nat) (a : Bool) : (exitNotify s i a).sigqueue = s.sigqueue := by unfold exitNotify; dsimp only; (repeat' split) <;> simp
@[simp] theorem exitNotify_sigwatchers (s : S) (i : Nat) (a : Bool) : (exitNotify s i a).sigwatchers = s.sigwatchers := by unfold exitNotify; dsimp only; (repeat' split) <;> simp
@[simp] theorem exitNotify_jobs (s : S) (i : Nat) (a : Bool) : (exitNotify s i a).jobs = s.jobs := by unfold exitNotify; dsimp only; (repeat' split) <;> simp
@[simp] theorem exitNotify_clock (s : S) (i : Nat) (a : Bool) : (exitNotify s i a).clock = s.clock := by unfold exitNotify; dsimp only; (repeat' split) <;> simp
@[simp] theorem exitNotify_main (s : S) (i : Nat) (a : Bool) : (exitNotify s i a).main = s.main := by unfold exitNotify; dsimp only; (repeat' split) <;> simp
@[simp] theorem exitNotify_envAsync (s : S) (i : Nat) (a : Bool) : (exitNotify s i a).envAsync = s.envAsync := by unfold exitNotify; dsimp only; (repeat' split) <;> simp
@[simp] theorem exitNotify_envEnabled (s : S) (i : Nat) (a : Bool) : (exitNotify s i a).envEnabled = s.envEnabled := by unfold exitNotify; dsimp only; (repeat' split) <;> simp
@[simp] theorem exitNotify_dead (s : S) (i : Nat) (a : Bool) : (exitNotify s i a).dead = s.dead := by unfold exitNotify; dsimp only; (repeat' split) <;> simp
@[simp] theorem doExit_nchan (s : S) (i : Nat) (a : Bool) : (doExit s i a).nchan = s.nchan := by unfold doExit; (try dsimp only); (repeat' split) <;> simp
@[simp] theorem doExit_mu (s : S) (i : Nat) (a : Bool) : (doExit s i a).mu = s.mu := by unfold doExit; (try dsimp only); (repeat' split) <;> simp
@[simp] theorem doExit_wg (s : S) (i : Nat) (a : Bool) : (doExit s i a).wg = s.wg := by unfold doExit; (try dsimp only); (repeat' split) <;> simp
@[simp] theorem doExit_dlq (s : S) (i : Nat) (a : Bool) : (doExit s i a).dlq = s.dlq := by unfold doExit; (try dsimp only); (repeat' split) <;> simp
@[simp] theorem doExit_evw (s : S) (i : Nat) (a : Bool) : (doExit s i a).evw = s.evw := by unfold doExit; (try dsimp only); (repeat' split) <;> simp
@[simp] theorem doExit_armed (s : S) (i : Nat) (a : Bool) : (doExit s i a).armed = s.armed := by unfold doExit; (try dsimp only); (repeat' split) <;> simp
@[simp] theorem doExit_nsleepers (s : S) (i : Nat) (a : Bool) : (doExit s i a).nsleepers = s.nsleepers := by unfold doExit; (try dsimp only); (repeat' split) <;> simp
@[simp] theorem doExit_nlocked (s : S) (i : Nat) (a : Bool) : (doExit s i a).nlocked = s.nlocked := by unfold doExit; (try dsimp only); (repeat' split) <;> simp
@[simp] theorem doExit_nreceivers (s : S) (i : Nat) (a : Bool) : (doExit s i a).nreceivers = s.nreceivers := by unfold doExit; (try dsimp only); (repeat' split) <;> simp
@[simp] theorem doExit_nsenders (s : S) (i : Nat) (a : Bool) : (doExit s i a).nsenders = s.nsenders := by unfold doExit; (try dsimp only); (repeat' split) <;> simp
@[simp] theorem doExit_nwaitgroupers (s : S) (i : Nat) (a : Bool) : (doExit s i a).nwaitgroupers = s.nwaitgroupers := by unfold doExit; (try dsimp only); (repeat' split) <;> simp
@[simp] theorem doExit_ncondwaiters (s : S) (i : Nat) (a : Bool) : (doExit s i a).ncondwaiters = s.ncondwaiters := by unfold doExit; (try dsimp only); (repeat' split) <;> simp
@[simp] theorem doExit_nsuspended (s : S) (i : Nat) (a : Bool) : (doExit s i a).nsuspended = s.nsuspended := by unfold doExit; (try dsimp only); (repeat' split) <;> simp
@[simp] theorem doExit_nevwaiters (s : S) (i : Nat) (a : Bool) : (doExit s i a).nevwaiters = s.nevwaiters := by unfold doExit; (try dsimp only); (repeat' split) <;> simp
@[simp] theorem doExit_nsigwaiters (s : S) (i : Nat) (a : Bool) : (doExit s i a).nsigwaiters = s.nsigwaiters := by unfold doExit; (try dsimp only); (repeat' split) <;> simp
@[simp] theorem doExit_niowaiters (s : S) (i : Nat) (a : Bool) : (doExit s i a).niowaiters = s.niowaiters := by unfold doExit; (try dsimp only); (repeat' split) <;> simp
@[simp] theorem doExit_pool (s : S) (i : Nat) (a : Bool) : (doExit s i a).pool = s.pool := by unfold doExit; (try dsimp only); (repeat' split) <;> simp
@[simp] theorem doExit_sigqueue (s : S) (i : Nat) (a : Bool) : (doExit s i a).sigqueue = s.sigqueue := by unfold doExit; (try dsimp only); (repeat' split) <;> simp
@[simp] theorem doExit_sigwatchers (s : S) (i : Nat) (a : Bool) : (doExit s i a).sigwatchers = s.sigwatchers := by unfold doExit; (try dsimp only); (repeat' split) <;> simp
@[simp] theorem doExit_jobs (s : S) (i : Nat) (a : Bool) : (doExit s i a).jobs = s.jobs := by unfold doExit; (try dsimp only); (repeat' split) <;> simp
@[simp] theorem doExit_clock (s : S) (i : Nat) (a : Bool) : (doExit s i a).clock = s.clock := by unfold doExit; (try dsimp only); (repeat' split) <;> simp
@[simp] theorem doExit_main (s : S) (i : Nat) (a : Bool) : (doExit s i a).main = s.main := by unfold doExit; (try dsimp only); (repeat' split) <;> simp
@[simp] theorem doExit_envAsync (s : S) (i : Nat) (a : Bool) : (doExit s i a).envAsync = s.envAsync := by unfold doExit; (try dsimp only); (repeat' split) <;> simp
@[simp] theorem doExit_envEnabled (s : S) (i : Nat) (a : Bool) : (doExit s i a).envEnabled = s.envEnabled := by unfold doExit; (try dsimp only); (repeat' split) <;> simp
@[simp] theorem doExit_dead (s : S) (i : Nat) (a : Bool) : (doExit s i a).dead = s.dead := by unfold doExit; (try dsimp only); (repeat' split) <;> simp
@[simp] theorem doFin_chan (s : S) (i : Nat) (a : Bool) : (doFin s i a).chan = s.chan := rfl
@[simp] theorem doFin_nchan (s : S) (i : Nat) (a : Bool) : (doFin s i a).nchan = s.nchan := rfl
@[simp] theorem doFin_mu (s : S) (i : Nat) (a : Bool) : (doFin s i a).mu = s.mu := rfl
@[simp] theorem doFin_wg (s : S) (i : Nat) (a : Bool) : (doFin s i a).wg = s.wg := rfl
@[simp] theorem doFin_all (s : S) (i : Nat) (a : Bool) : (doFin s i a).all = s.all := rfl
@[simp] theorem doFin_allCount (s : S) (i : Nat) (a : Bool) : (doFin s i a).allCount = s.allCount := rfl
@[simp] theorem doFin_dlq (s : S) (i : Nat) (a : Bool) : (doFin s i a).dlq = s.dlq := rfl
@[simp] theorem doFin_evw (s : S) (i : Nat) (a : Bool) : (doFin s i a).evw = s.evw := rfl
@[simp] theorem doFin_armed (s : S) (i : Nat) (a : Bool) : (doFin s i a).armed = s.armed := rfl
@[simp] theorem doFin_nsleepers (s : S) (i : Nat) (a : Bool) : (doFin s i a).nsleepers = s.nsleepers := rfl
@[simp] theorem doFin_nlocked (s : S) (i : Nat) (a : Bool) : (doFin s i a).nlocked = s.nlocked := rfl
@[simp] theorem doFin_nreceivers (s : S) (i : Nat) (a : Bool) : (doFin s i a).nreceivers = s.nreceivers := rfl
@[simp] theorem doFin_nsenders (s : S) (i : Nat) (a : Bool) : (doFin s i a).nsenders = s.nsenders := rfl
@[simp] theorem doFin_nwaitgroupers (s : S) (i : Nat) (a : Bool) : (doFin s i a).nwaitgroupers = s.nwaitgroupers := rfl
@[simp] theorem doFin_ncondwaiters (s : S) (i : Nat) (a : Bool) : (doFin s i a).ncondwaiters = s.ncondwaiters := rfl
@[simp] theorem doFin_nsuspended (s : S) (i : Nat) (a : Bool) : (doFin s i a).nsuspended = s.nsuspended := rfl
@[simp] theorem doFin_nevwaiters (s : S) (i : Nat) (a : Bool) : (doFin s i a).nevwaiters = s.nevwaiters := rfl
@[simp] theorem doFin_nsigwaiters (s : S) (i : Nat) (a : Bool) : (doFin s i a).nsigwaiters = s.nsigwaiters := rfl
@[simp] theorem doFin_nresumers (s : S) (i : Nat) (a : Bool) : (doFin s i a).nresumers = s.nresumers := rfl
@[simp] theorem doFin_niowaiters (s : S) (i : Nat) (a : Bool) : (doFin s i a).niowaiters = s.niowaiters := rfl
@[simp] theorem doFin_sigqueue (s : S) (i : Nat) (a : Bool) : (doFin s i a).sigqueue = s.sigqueue := rfl
@[simp] theorem doFin_sigwatchers (s : S) (i : Nat) (a : Bool) : (doFin s i a).sigwatchers = s.sigwatchers := rfl
@[simp] theorem doFin_jobs (s : S) (i : Nat) (a : Bool) : (doFin s i a).jobs = s.jobs := rfl
@[simp] theorem doFin_clock (s : S) (i : Nat) (a : Bool) : (doFin s i a).clock = s.clock := rfl
@[simp] theorem doFin_main (s : S) (i : Nat) (a : Bool) : (doFin s i a).main = s.main := rfl
@[simp] theorem doFin_envAsync (s : S) (i : Nat) (a : Bool) : (doFin s i a).envAsync = s.envAsync := rfl
@[simp] theorem doFin_envEnabled (s : S) (i : Nat) (a : Bool) : (doFin s i a).envEnabled = s.envEnabled := rfl
@[simp] theorem doFin_dead (s : S) (i : Nat) (a : Bool) : (doFin s i a).dead = s.dead := rfl
@[simp] theorem doFin_fault (s : S) (i : Nat) (a : Bool) : (doFin s i a).fault = s.fault := rfl
@[simp] theorem doFin_log (s : S) (i : Nat) (a : Bool) : (doFin s i a).log = s.log := rfl
@[simp] theorem doAft_nchan (s : S) (i : Nat) (a : Aft) : (doAft s i a).nchan = s.nchan := by unfold doAft; (try dsimp only); (repeat' split) <;> simp
@[simp] theorem doAft_mu (s : S) (i : Nat) (a : Aft) : (doAft s i a).mu = s.mu := by unfold doAft; (try dsimp only); (repeat' split) <;> simp
@[simp] theorem doAft_wg (s : S) (i : Nat) (a : Aft) : (doAft s i a).wg = s.wg := by unfold doAft; (try dsimp only); (repeat' split) <;> simp
@[simp] theorem doAft_all (s : S) (i : Nat) (a : Aft) : (doAft s i a).all = s.all := by unfold doAft; (try dsimp only); (repeat' split) <;> simp
@[simp] theorem doAft_allCount (s : S) (i : Nat) (a : Aft) : (doAft s i a).allCount = s.allCount := by unfold doAft; (try dsimp only); (repeat' split) <;> simp
@[simp] theorem doAft_evw (s : S) (i : Nat) (a : Aft) : (doAft s i a).evw = s.evw := by unfold doAft; (try dsimp only); (repeat' split) <;> simp
@[simp] theorem doAft_armed (s : S) (i : Nat) (a : Aft) : (doAft s i a).armed = s.armed := by unfold doAft; (try dsimp only); (repeat' split) <;> simp
@[simp] theorem doAft_nsleepers (s : S) (i : Nat) (a : Aft) : (doAft s i a).nsleepers = s.nsleepers := by unfold doAft; (try dsimp only); (repeat' split) <;> simp
@[simp] theorem doAft_nlocked (s : S) (i : Nat) (a : Aft) : (doAft s i a).nlocked = s.nlocked := by unfold doAft; (try dsimp only); (repeat' split) <;> simp
@[simp] theorem doAft_nreceivers (s : S) (i : Nat) (a : Aft) : (doAft s i a).nreceivers = s.nreceivers := by unfold doAft; (try dsimp only); (repeat' split) <;> simp
@[simp] theorem doAft_nsenders (s : S) (i : Nat) (a : Aft) : (doAft s i a).nsenders = s.nsenders := by unfold doAft; (try dsimp only); (repeat' split) <;> simp
@[simp] theorem doAft_nwaitgroupers (s : S) (i : Nat) (a : Aft) : (doAft s i a).nwaitgroupers = s.nwaitgroupers := by unfold doAft; (try dsimp only); (repeat' split) <;> simp
@[simp] theorem doAft_nsuspended (s : S) (i : Nat) (a : Aft) : (doAft s i a).nsuspended = s.nsuspended := by unfold doAft; (try dsimp only); (repeat' split) <;> simp
@[simp] theorem doAft_nevwaiters (s : S) (i : Nat) (a : Aft) : (doAft s i a).nevwaiters = s.nevwaiters := by unfold doAft; (try dsimp only); (repeat' split) <;> simp
@[simp] theorem doAft_nsigwaiters (s : S) (i : Nat) (a : Aft) : (doAft s i a).nsigwaiters = s.nsigwaiters := by unfold doAft; (try dsimp only); (repeat' split) <;> simp
@[simp] theorem doAft_nresumers (s : S) (i : Nat) (a : Aft) : (doAft s i a).nresumers = s.nresumers := by unfold doAft; (try dsimp only); (repeat' split) <;> simp
@[simp] theorem doAft_niowaiters (s : S) (i : Nat) (a : Aft) : (doAft s i a).niowaiters = s.niowaiters := by unfold doAft; (try dsimp only); (repeat' split) <;> simp
@[simp] theorem doAft_sigqueue (s : S) (i : Nat) (a : Aft) : (doAft s i a).sigqueue = s.sigqueue := by unfold doAft; (try dsimp only); (repeat' split) <;> simp
@[simp] theorem doAft_sigwatchers (s : S) (i : Nat) (a : Aft) : (doAft s i a).sigwatchers = s.sigwatchers := by unfold doAft; (try dsimp only); (repeat' split) <;> simp
@[simp] theorem doAft_jobs (s : S) (i : Nat) (a : Aft) : (doAft s i a).jobs = s.jobs := by unfold doAft; (try dsimp only); (repeat' split) <;> simp
@[simp] theorem doAft_clock (s : S) (i : Nat) (a : Aft) : (doAft s i a).clock = s.clock := by unfold doAft; (try dsimp only); (repeat' split) <;> simp
@[simp] theorem doAft_main (s : S) (i : Nat) (a : Aft) : (doAft s i a).main = s.main := by unfold doAft; (try dsimp only); (repeat' split) <;> simp
@[simp] theorem doAft_envAsync (s : S) (i : Nat) (a : Aft) : (doAft s i a).envAsync = s.envAsync := by unfold doAft; (try dsimp only); (repeat' split) <;> simp
@[simp] theorem doAft_envEnabled (s : S) (i : Nat) (a : Aft) : (doAft s i a).envEnabled = s.envEnabled := by unfold doAft; (try dsimp only); (repeat' split) <;> simp
@[simp] theorem doAft_dead (s : S) (i : Nat) (a : Aft) : (doAft s i a).dead = s.dead := by unfold doAft; (try dsimp only); (repeat' split) <;> simp
@[simp] theorem doAft_log (s : S) (i : Nat) (a : Aft) : (doAft s i a).log = s.log := by unfold doAft; (try dsimp only); (repeat' split) <;> simp
@[simp] theorem doRet_sco (s : S) (i : Nat) (v : Int) : (doRet s i v).sco = s.sco := by unfold doRet; (try dsimp only); (repeat' split) <;> simp
@[simp] theorem doRet_lists (s : S) (i : Nat) (v : Int) : (doRet s i v).lists = s.lists := by unfold doRet; (try dsimp only); (repeat' split) <;> simp
@[simp] theorem doRet_chan (s : S) (i : Nat) (v : Int) : (doRet s i v).chan = s.chan := by unfold doRet; (try dsimp only); (repeat' split) <;> simp
@[simp] theorem doRet_nchan (s : S) (i : Nat) (v : Int) : (doRet s i v).nchan = s.nchan := by unfold doRet; (try dsimp only); (repeat' split) <;> simp
@[simp] theorem doRet_mu (s : S) (i : Nat) (v : Int) : (doRet s i v).mu = s.mu := by unfold doRet; (try dsimp only); (repeat' split) <;> simp
@[simp] theorem doRet_wg (s : S) (i : Nat) (v : Int) : (doRet s i v).wg = s.wg := by unfold doRet; (try dsimp only); (repeat' split) <;> simp
@[simp] theorem doRet_all (s : S) (i : Nat) (v : Int) : (doRet s i v).all = s.all := by unfold doRet; (try dsimp only); (repeat' split) <;> simp
@[simp] theorem doRet_allCount (s : S) (i : Nat) (v : Int) : (doRet s i v).allCount = s.allCount := by unfold doRet; (try dsimp only); (repeat' split) <;> simp
@[simp] theorem doRet_dlq (s : S) (i : Nat) (v : Int) : (doRet s i v).dlq = s.dlq := by unfold doRet; (try dsimp only); (repeat' split) <;> simp
@[simp] theorem doRet_evw (s : S) (i : Nat) (v : Int) : (doRet s i v).evw = s.evw := by unfold doRet; (try dsimp only); (repeat' split) <;> simp
@[simp] theorem doRet_armed (s : S) (i : Nat) (v : Int) : (doRet s i v).armed = s.armed := by unfold doRet; (try dsimp only); (repeat' split) <;> simp
@[simp] theorem doRet_nsleepers (s : S) (i : Nat) (v : Int) : (doRet s i v).nsleepers = s.nsleepers := by unfold doRet; (try dsimp only); (repeat' split) <;> simp
@[simp] theorem doRet_nlocked (s : S) (i : Nat) (v : Int) : (doRet s i v).nlocked = s.nlocked := by unfold doRet; (try dsimp only); (repeat' split) <;> simp
@[simp] theorem doRet_nreceivers (s : S) (i : Nat) (v : Int) : (doRet s i v).nreceivers = s.nreceivers := by unfold doRet; (try dsimp only); (repeat' split) <;> simp
@[simp] theorem doRet_nsenders (s : S) (i : Nat) (v : Int) : (doRet s i v).nsenders = s.nsenders := by unfold doRet; (try dsimp only); (repeat' split) <;> simp
@[simp] theorem doRet_nwaitgroupers (s : S) (i : Nat) (v : Int) : (doRet s i v).nwaitgroupers = s.nwaitgroupers := by unfold doRet; (try dsimp only); (repeat' split) <;> simp
@[simp] theorem doRet_ncondwaiters (s : S) (i : Nat) (v : Int) : (doRet s i v).ncondwaiters = s.ncondwaiters := by unfold doRet; (try dsimp only); (repeat' split) <;> simp
@[simp] theorem doRet_nsuspended (s : S) (i : Nat) (v : Int) : (doRet s i v).nsuspended = s.nsuspended := by unfold doRet; (try dsimp only); (repeat' split) <;> simp
@[simp] theorem doRet_nevwaiters (s : S) (i : Nat) (v : Int) : (doRet s i v).nevwaiters = s.nevwaiters := by unfold doRet; (try dsimp only); (repeat' split) <;> simp
@[simp] theorem doRet_nsigwaiters (s : S) (i : Nat) (v : Int) : (doRet s i v).nsigwaiters = s.nsigwaiters := by unfold doRet; (try dsimp only); (repeat' split) <;> simp
@[simp] theorem doRet_nresumers (s : S) (i : Nat) (v : Int) : (doRet s i v).nresumers = s.nresumers := by unfold doRet; (try dsimp only); (repeat' split) <;> simp
@[simp] theorem doRet_niowaiters (s : S) (i : Nat) (v : Int) : (doRet s i v).niowaiters = s.niowaiters := by unfold doRet; (try dsimp only); (repeat' split) <;> simp
@[simp] theorem doRet_pool (s : S) (i : Nat) (v : Int) : (doRet s i v).pool = s.pool := by unfold doRet; (try dsimp only); (repeat' split) <;> simp
@[simp] theorem doRet_sigqueue (s : S) (i : Nat) (v : Int) : (doRet s i v).sigqueue = s.sigqueue := by unfold doRet; (try dsimp only); (repeat' split) <;> simp
@[simp] theorem doRet_sigwatchers (s : S) (i : Nat) (v : Int) : (doRet s i v).sigwatchers = s.sigwatchers := by unfold doRet; (try dsimp only); (repeat' split) <;> simp
@[simp] theorem doRet_jobs (s : S) (i : Nat) (v : Int) : (doRet s i v).jobs = s.jobs := by unfold doRet; (try dsimp only); (repeat' split) <;> simp
@[simp] theorem doRet_clock (s : S) (i : Nat) (v : Int) : (doRet s i v).clock = s.clock := by unfold doRet; (try dsimp only); (repeat' split) <;> simp
@[simp] theorem doRet_main (s : S) (i : Nat) (v : Int) : (doRet s i v).main = s.main := by unfold doRet; (try dsimp only); (repeat' split) <;> simp
@[simp] theorem doRet_envAsync (s : S) (i : Nat) (v : Int) : (doRet s i v).envAsync = s.envAsync := by unfold doRet; (try dsimp only); (repeat' split) <;> simp
@[simp] theorem doRet_envEnabled (s : S) (i : Nat) (v : Int) : (doRet s i v).envEnabled = s.envEnabled := by unfold doRet; (try dsimp only); (repeat' split) <;> simp
@[simp] theorem doRet_dead (s : S) (i : Nat) (v : Int) : (doRet s i v).dead = s.dead := by unfold doRet; (try dsimp only); (repeat' split) <;> simp
@[simp] theorem doRet_fault (s : S) (i : Nat) (v : Int) : (doRet s i v).fault = s.fault := by unfold doRet; (try dsimp only); (repeat' split) <;> simp
@[simp] theorem wakeAll_co (s : S) (q : List Nat) : (wakeAll s q).co = s.co := by
  induction q generalizing s with
  | nil => rfl
  | cons n q ih => simp [wakeAll, ih]
@[simp] theorem wakeAll_lists (s : S) (q : List Nat) : (wakeAll s q).lists = s.lists := by
  induction q generalizing s with
  | nil => rfl
  | cons n q ih => simp [wakeAll, ih]
@[simp] theorem wakeAll_chan (s : S) (q : List Nat) : (wakeAll s q).chan = s.chan := by
  induction q generalizing s with
  | nil => rfl
  | cons n q ih => simp [wakeAll, ih]
@[simp] theorem wakeAll_nchan (s : S) (q : List Nat) : (wakeAll s q).nchan = s.nchan := by
  induction q generalizing s with
  | nil => rfl
  | cons n q ih => simp [wakeAll, ih]
@[simp] theorem wakeAll_mu (s : S) (q : List Nat) : (wakeAll s q).mu = s.mu := by
  induction q generalizing s with
  | nil => rfl
  | cons n q ih => simp [wakeAll, ih]
@[simp] theorem wakeAll_wg (s : S) (q : List Nat) : (wakeAll s q).wg = s.wg := by
  induction q generalizing s with
  | nil => rfl
  | cons n q ih => simp [wakeAll, ih]
@[simp] theorem wakeAll_all (s : S) (q : List Nat) : (wakeAll s q).all = s.all := by
  induction q generalizing s with
  | nil => rfl
  | cons n q ih => simp [wakeAll, ih]
@[simp] theorem wakeAll_allCount (s : S) (q : List Nat) : (wakeAll s q).allCount = s.allCount := by
  induction q generalizing s with
  | nil => rfl
  | cons n q ih => simp [wakeAll, ih]
@[simp] theorem wakeAll_dlq (s : S) (q : List Nat) : (wakeAll s q).dlq = s.dlq := by
  induction q generalizing s with
  | nil => rfl
  | cons n q ih => simp [wakeAll, ih]
@[simp] theorem wakeAll_evw (s : S) (q : List Nat) : (wakeAll s q).evw = s.evw := by
  induction q generalizing s with
  | nil => rfl
  | cons n q ih => simp [wakeAll, ih]
@[simp] theorem wakeAll_armed (s : S) (q : List Nat) : (wakeAll s q).armed = s.armed := by
  induction q generalizing s with
  | nil => rfl
  | cons n q ih => simp [wakeAll, ih]
@[simp] theorem wakeAll_nsleepers (s : S) (q : List Nat) : (wakeAll s q).nsleepers = s.nsleepers := by
  induction q generalizing s with
  | nil => rfl
  | cons n q ih => simp [wakeAll, ih]
@[simp] theorem wakeAll_nlocked (s : S) (q : List Nat) : (wakeAll s q).nlocked = s.nlocked := by
  induction q generalizing s with
  | nil => rfl
  | cons n q ih => simp [wakeAll, ih]
@[simp] theorem wakeAll_nreceivers (s : S) (q : List Nat) : (wakeAll s q).nreceivers = s.nreceivers := by
  induction q generalizing s with
  | nil => rfl
  | cons n q ih => simp [wakeAll, ih]
@[simp] theorem wakeAll_nsenders (s : S) (q : List Nat) : (wakeAll s q).nsenders = s.nsenders := by
  induction q generalizing s with
  | nil => rfl
  | cons n q ih => simp [wakeAll, ih]
@[simp] theorem wakeAll_nwaitgroupers (s : S) (q : List Nat) : (wakeAll s q).nwaitgroupers = s.nwaitgroupers := by
  induction q generalizing s with
  | nil => rfl
  | cons n q ih => simp [wakeAll, ih]
@[simp] theorem wakeAll_ncondwaiters (s : S) (q : List Nat) : (wakeAll s q).ncondwaiters = s.ncondwaiters := by
  induction q generalizing s with
  | nil => rfl
  | cons n q ih => simp [wakeAll, ih]
@[simp] theorem wakeAll_nsuspended (s : S) (q : List Nat) : (wakeAll s q).nsuspended = s.nsuspended := by
  induction q generalizing s with
  | nil => rfl
  | cons n q ih => simp [wakeAll, ih]
@[simp] theorem wakeAll_nevwaiters (s : S) (q : List Nat) : (wakeAll s q).nevwaiters = s.nevwaiters := by
  induction q generalizing s with
  | nil => rfl
  | cons n q ih => simp [wakeAll, ih]
@[simp] theorem wakeAll_nsigwaiters (s : S) (q : List Nat) : (wakeAll s q).nsigwaiters = s.nsigwaiters := by
  induction q generalizing s with
  | nil => rfl
  | cons n q ih => simp [wakeAll, ih]
@[simp] theorem wakeAll_nresumers (s : S) (q : List Nat) : (wakeAll s q).nresumers = s.nresumers := by
  induction q generalizing s with
  | nil => rfl
  | cons n q ih => simp [wakeAll, ih]
@[simp] theorem wakeAll_niowaiters (s : S) (q : List Nat) : (wakeAll s q).niowaiters = s.niowaiters := by
  induction q generalizing s with
  | nil => rfl
  | cons n q ih => simp [wakeAll, ih]
@[simp] theorem wakeAll_pool (s : S) (q : List Nat) : (wakeAll s q).pool = s.pool := by
  induction q generalizing s with
  | nil => rfl
  | cons n q ih => simp [wakeAll, ih]
@[simp] theorem wakeAll_sigqueue (s : S) (q : List Nat) : (wakeAll s q).sigqueue = s.sigqueue := by
  induction q generalizing s with
  | nil => rfl
  | cons n q ih => simp [wakeAll, ih]
@[simp] theorem wakeAll_sigwatchers (s : S) (q : List Nat) : (wakeAll s q).sigwatchers = s.sigwatchers := by
  induction q generalizing s with
  | nil => rfl
  | cons n q ih => simp [wakeAll, ih]
@[simp] theorem wakeAll_jobs (s : S) (q : List Nat) : (wakeAll s q).jobs = s.jobs := by
  induction q generalizing s with
  | nil => rfl
  | cons n q ih => simp [wakeAll, ih]
@[simp] theorem wakeAll_clock (s : S) (q : List Nat) : (wakeAll s q).clock = s.clock := by
  induction q generalizing s with
  | nil => rfl
  | cons n q ih => simp [wakeAll, ih]
@[simp] theorem wakeAll_main (s : S) (q : List Nat) : (wakeAll s q).main = s.main := by
  induction q generalizing s with
  | nil => rfl
  | cons n q ih => simp [wakeAll, ih]
@[simp] theorem wakeAll_envAsync (s : S) (q : List Nat) : (wakeAll s q).envAsync = s.envAsync := by
  induction q generalizing s with
  | nil => rfl
  | cons n q ih => simp [wakeAll, ih]
@[simp] theorem wakeAll_envEnabled (s : S) (q : List Nat) : (wakeAll s q).envEnabled = s.envEnabled := by
  induction q generalizing s with
  | nil => rfl
  | cons n q ih => simp [wakeAll, ih]
@[simp] theorem wakeAll_dead (s : S) (q : List Nat) : (wakeAll s q).dead = s.dead := by
  induction q generalizing s with
  | nil => rfl
  | cons n q ih => simp [wakeAll, ih]
@[simp] theorem wakeAll_fault (s : S) (q : List Nat) : (wakeAll s q).fault = s.fault := by
  induction q generalizing s with
  | nil => rfl
  | cons n q ih => simp [wakeAll, ih]
@[simp] theorem wakeAll_log (s : S) (q : List Nat) : (wakeAll s q).log = s.log := by
  induction q generalizing s with
  | nil => rfl
  | cons n q ih => simp [wakeAll, ih]
@[simp] theorem mResume_co (s : S)  : (mResume s).co = s.co := by unfold mResume; simp
@[simp] theorem mResume_chan (s : S)  : (mResume s).chan = s.chan := by unfold mResume; simp
@[simp] theorem mResume_nchan (s : S)  : (mResume s).nchan = s.nchan := by unfold mResume; simp
@[simp] theorem mResume_mu (s : S)  : (mResume s).mu = s.mu := by unfold mResume; simp
@[simp] theorem mResume_wg (s : S)  : (mResume s).wg = s.wg := by unfold mResume; simp
@[simp] theorem mResume_all (s : S)  : (mResume s).all = s.all := by unfold mResume; simp
@[simp] theorem mResume_allCount (s : S)  : (mResume s).allCount = s.allCount := by unfold mResume; simp
@[simp] theorem mResume_dlq (s : S)  : (mResume s).dlq = s.dlq := by unfold mResume; simp
@[simp] theorem mResume_evw (s : S)  : (mResume s).evw = s.evw := by unfold mResume; simp
@[simp] theorem mResume_armed (s : S)  : (mResume s).armed = s.armed := by unfold mResume; simp
@[simp] theorem mResume_nsleepers (s : S)  : (mResume s).nsleepers = s.nsleepers := by unfold mResume; simp
@[simp] theorem mResume_nlocked (s : S)  : (mResume s).nlocked = s.nlocked := by unfold mResume; simp
@[simp] theorem mResume_nreceivers (s : S)  : (mResume s).nreceivers = s.nreceivers := by unfold mResume; simp
@[simp] theorem mResume_nsenders (s : S)  : (mResume s).nsenders = s.nsenders := by unfold mResume; simp
@[simp] theorem mResume_nwaitgroupers (s : S)  : (mResume s).nwaitgroupers = s.nwaitgroupers := by unfold mResume; simp
@[simp] theorem mResume_ncondwaiters (s : S)  : (mResume s).ncondwaiters = s.ncondwaiters := by unfold mResume; simp
@[simp] theorem mResume_nsuspended (s : S)  : (mResume s).nsuspended = s.nsuspended := by unfold mResume; simp
@[simp] theorem mResume_nevwaiters (s : S)  : (mResume s).nevwaiters = s.nevwaiters := by unfold mResume; simp
@[simp] theorem mResume_nsigwaiters (s : S)  : (mResume s).nsigwaiters = s.nsigwaiters := by unfold mResume; simp
@[simp] theorem mResume_niowaiters (s : S)  : (mResume s).niowaiters = s.niowaiters := by unfold mResume; simp
@[simp] theorem mResume_pool (s : S)  : (mResume s).pool = s.pool := by unfold mResume; simp
@[simp] theorem mResume_sigqueue (s : S)  : (mResume s).sigqueue = s.sigqueue := by unfold mResume; simp
@[simp] theorem mResume_sigwatchers (s : S)  : (mResume s).sigwatchers = s.sigwatchers := by unfold mResume; simp
@[simp] theorem mResume_jobs (s : S)  : (mResume s).jobs = s.jobs := by unfold mResume; simp
@[simp] theorem mResume_clock (s : S)  : (mResume s).clock = s.clock := by unfold mResume; simp
@[simp] theorem mResume_main (s : S)  : (mResume s).main = s.main := by unfold mResume; simp
@[simp] theorem mResume_envAsync (s : S)  : (mResume s).envAsync = s.envAsync := by unfold mResume; simp
@[simp] theorem mResume_envEnabled (s : S)  : (mResume s).envEnabled = s.envEnabled := by unfold mResume; simp
@[simp] theorem mResume_dead (s : S)  : (mResume s).dead = s.dead := by unfold mResume; simp
@[simp] theorem mResume_fault (s : S)  : (mResume s).fault = s.fault := by unfold mResume; simp
@[simp] theorem mResume_log (s : S)  : (mResume s).log = s.log := by unfold mResume; simp
@[simp] theorem mIo_co (s : S)  : (mIo s).co = s.co := by unfold mIo; (try dsimp only); (repeat' split) <;> simp
@[simp] theorem mIo_chan (s : S)  : (mIo s).chan = s.chan := by unfold mIo; (try dsimp only); (repeat' split) <;> simp
@[simp] theorem mIo_nchan (s : S)  : (mIo s).nchan = s.nchan := by unfold mIo; (try dsimp only); (repeat' split) <;> simp
@[simp] theorem mIo_mu (s : S)  : (mIo s).mu = s.mu := by unfold mIo; (try dsimp only); (repeat' split) <;> simp
@[simp] theorem mIo_wg (s : S)  : (mIo s).wg = s.wg := by unfold mIo; (try dsimp only); (repeat' split) <;> simp
@[simp] theorem mIo_all (s : S)  : (mIo s).all = s.all := by unfold mIo; (try dsimp only); (repeat' split) <;> simp
@[simp] theorem mIo_allCount (s : S)  : (mIo s).allCount = s.allCount := by unfold mIo; (try dsimp only); (repeat' split) <;> simp
@[simp] theorem mIo_dlq (s : S)  : (mIo s).dlq = s.dlq := by unfold mIo; (try dsimp only); (repeat' split) <;> simp
@[simp] theorem mIo_evw (s : S)  : (mIo s).evw = s.evw := by unfold mIo; (try dsimp only); (repeat' split) <;> simp
@[simp] theorem mIo_armed (s : S)  : (mIo s).armed = s.armed := by unfold mIo; (try dsimp only); (repeat' split) <;> simp
@[simp] theorem mIo_nsleepers (s : S)  : (mIo s).nsleepers = s.nsleepers := by unfold mIo; (try dsimp only); (repeat' split) <;> simp
@[simp] theorem mIo_nlocked (s : S)  : (mIo s).nlocked = s.nlocked := by unfold mIo; (try dsimp only); (repeat' split) <;> simp
@[simp] theorem mIo_nreceivers (s : S)  : (mIo s).nreceivers = s.nreceivers := by unfold mIo; (try dsimp only); (repeat' split) <;> simp
@[simp] theorem mIo_nsenders (s : S)  : (mIo s).nsenders = s.nsenders := by unfold mIo; (try dsimp only); (repeat' split) <;> simp
@[simp] theorem mIo_nwaitgroupers (s : S)  : (mIo s).nwaitgroupers = s.nwaitgroupers := by unfold mIo; (try dsimp only); (repeat' split) <;> simp
@[simp] theorem mIo_ncondwaiters (s : S)  : (mIo s).ncondwaiters = s.ncondwaiters := by unfold mIo; (try dsimp only); (repeat' split) <;> simp
@[simp] theorem mIo_nsuspended (s : S)  : (mIo s).nsuspended = s.nsuspended := by unfold mIo; (try dsimp only); (repeat' split) <;> simp
@[simp] theorem mIo_nevwaiters (s : S)  : (mIo s).nevwaiters = s.nevwaiters := by unfold mIo; (try dsimp only); (repeat' split) <;> simp
@[simp] theorem mIo_nsigwaiters (s : S)  : (mIo s).nsigwaiters = s.nsigwaiters := by unfold mIo; (try dsimp only); (repeat' split) <;> simp
@[simp] theorem mIo_nresumers (s : S)  : (mIo s).nresumers = s.nresumers := by unfold mIo; (try dsimp only); (repeat' split) <;> simp
@[simp] theorem mIo_niowaiters (s : S)  : (mIo s).niowaiters = s.niowaiters := by unfold mIo; (try dsimp only); (repeat' split) <;> simp
@[simp] theorem mIo_pool (s : S)  : (mIo s).pool = s.pool := by unfold mIo; (try dsimp only); (repeat' split) <;> simp
@[simp] theorem mIo_sigqueue (s : S)  : (mIo s).sigqueue = s.sigqueue := by unfold mIo; (try dsimp only); (repeat' split) <;> simp
@[simp] theorem mIo_sigwatchers (s : S)  : (mIo s).sigwatchers = s.sigwatchers := by unfold mIo; (try dsimp only); (repeat' split) <;> simp
@[simp] theorem mIo_jobs (s : S)  : (mIo s).jobs = s.jobs := by unfold mIo; (try dsimp only); (repeat' split) <;> simp
@[simp] theorem mIo_clock (s : S)  : (mIo s).clock = s.clock := by unfold mIo; (try dsimp only); (repeat' split) <;> simp
@[simp] theorem mIo_main (s : S)  : (mIo s).main = s.main := by unfold mIo; (try dsimp only); (repeat' split) <;> simp
@[simp] theorem mIo_envAsync (s : S)  : (mIo s).envAsync = s.envAsync := by unfold mIo; (try dsimp only); (repeat' split) <;> simp
@[simp] theorem mIo_envEnabled (s : S)  : (mIo s).envEnabled = s.envEnabled := by unfold mIo; (try dsimp only); (repeat' split) <;> simp
@[simp] theorem mIo_dead (s : S)  : (mIo s).dead = s.dead := by unfold mIo; (try dsimp only); (repeat' split) <;> simp
@[simp] theorem mIo_fault (s : S)  : (mIo s).fault = s.fault := by unfold mIo; (try dsimp only); (repeat' split) <;> simp
@[simp] theorem mIo_log (s : S)  : (mIo s).log = s.log := by unfold mIo; (try dsimp only); (repeat' split) <;> simp
@[simp] theorem mEvent_co (s : S) (e : Nat × Bool × Bool) : (mEvent s e).co = s.co := by unfold mEvent; simp
@[simp] theorem mEvent_lists (s : S) (e : Nat × Bool × Bool) : (mEvent s e).lists = s.lists := by unfold mEvent; simp
@[simp] theorem mEvent_chan (s : S) (e : Nat × Bool × Bool) : (mEvent s e).chan = s.chan := by unfold mEvent; simp
@[simp] theorem mEvent_nchan (s : S) (e : Nat × Bool × Bool) : (mEvent s e).nchan = s.nchan := by unfold mEvent; simp
@[simp] theorem mEvent_mu (s : S) (e : Nat × Bool × Bool) : (mEvent s e).mu = s.mu := by unfold mEvent; simp
@[simp] theorem mEvent_wg (s : S) (e : Nat × Bool × Bool) : (mEvent s e).wg = s.wg := by unfold mEvent; simp
@[simp] theorem mEvent_all (s : S) (e : Nat × Bool × Bool) : (mEvent s e).all = s.all := by unfold mEvent; simp
@[simp] theorem mEvent_allCount (s : S) (e : Nat × Bool × Bool) : (mEvent s e).allCount = s.allCount := by unfold mEvent; simp
@[simp] theorem mEvent_dlq (s : S) (e : Nat × Bool × Bool) : (mEvent s e).dlq = s.dlq := by unfold mEvent; simp
@[simp] theorem mEvent_evw (s : S) (e : Nat × Bool × Bool) : (mEvent s e).evw = s.evw := by unfold mEvent; simp
@[simp] theorem mEvent_nsleepers (s : S) (e : Nat × Bool × Bool) : (mEvent s e).nsleepers = s.nsleepers := by unfold mEvent; simp
@[simp] theorem mEvent_nlocked (s : S) (e : Nat × Bool × Bool) : (mEvent s e).nlocked = s.nlocked := by unfold mEvent; simp
@[simp] theorem mEvent_nreceivers (s : S) (e : Nat × Bool × Bool) : (mEvent s e).nreceivers = s.nreceivers := by unfold mEvent; simp
@[simp] theorem mEvent_nsenders (s : S) (e : Nat × Bool × Bool) : (mEvent s e).nsenders = s.nsenders := by unfold mEvent; simp
@[simp] theorem mEvent_nwaitgroupers (s : S) (e : Nat × Bool × Bool) : (mEvent s e).nwaitgroupers = s.nwaitgroupers := by unfold mEvent; simp
@[simp] theorem mEvent_ncondwaiters (s : S) (e : Nat × Bool × Bool) : (mEvent s e).ncondwaiters = s.ncondwaiters := by unfold mEvent; simp
@[simp] theorem mEvent_nsuspended (s : S) (e : Nat × Bool × Bool) : (mEvent s e).nsuspended = s.nsuspended := by unfold mEvent; simp
@[simp] theorem mEvent_nevwaiters (s : S) (e : Nat × Bool × Bool) : (mEvent s e).nevwaiters = s.nevwaiters := by unfold mEvent; simp
@[simp] theorem mEvent_nsigwaiters (s : S) (e : Nat × Bool × Bool) : (mEvent s e).nsigwaiters = s.nsigwaiters := by unfold mEvent; simp
@[simp] theorem mEvent_nresumers (s : S) (e : Nat × Bool × Bool) : (mEvent s e).nresumers = s.nresumers := by unfold mEvent; simp
@[simp] theorem mEvent_niowaiters (s : S) (e : Nat × Bool × Bool) : (mEvent s e).niowaiters = s.niowaiters := by unfold mEvent; simp
@[simp] theorem mEvent_pool (s : S) (e : Nat × Bool × Bool) : (mEvent s e).pool = s.pool := by unfold mEvent; simp
@[simp] theorem mEvent_sigqueue (s : S) (e : Nat × Bool × Bool) : (mEvent s e).sigqueue = s.sigqueue := by unfold mEvent; simp
@[simp] theorem mEvent_sigwatchers (s : S) (e : Nat × Bool × Bool) : (mEvent s e).sigwatchers = s.sigwatchers := by unfold mEvent; simp
@[simp] theorem mEvent_jobs (s : S) (e : Nat × Bool × Bool) : (mEvent s e).jobs = s.jobs := by unfold mEvent; simp
@[simp] theorem mEvent_clock (s : S) (e : Nat × Bool × Bool) : (mEvent s e).clock = s.clock := by unfold mEvent; simp
@[simp] theorem mEvent_main (s : S) (e : Nat × Bool × Bool) : (mEvent s e).main = s.main := by unfold mEvent; simp
@[simp] theorem mEvent_envAsync (s : S) (e : Nat × Bool × Bool) : (mEvent s e).envAsync = s.envAsync := by unfold mEvent; simp
@[simp] theorem mEvent_envEnabled (s : S) (e : Nat × Bool × Bool) : (mEvent s e).envEnabled = s.envEnabled := by unfold mEvent; simp
@[simp] theorem mEvent_dead (s : S) (e : Nat × Bool × Bool) : (mEvent s e).dead = s.dead := by unfold mEvent; simp
@[simp] theorem mEvent_fault (s : S) (e : Nat × Bool × Bool) : (mEvent s e).fault = s.fault := by unfold mEvent; simp
@[simp] theorem mEvents_co (s : S) (q : List (Nat × Bool × Bool)) : (mEvents s q).co = s.co := by
  induction q generalizing s with
  | nil => rfl
  | cons n q ih => simp [mEvents, ih]
@[simp] theorem mEvents_lists (s : S) (q : List (Nat × Bool × Bool)) : (mEvents s q).lists = s.lists := by
  induction q generalizing s with
  | nil => rfl
  | cons n q ih => simp [mEvents, ih]
@[simp] theorem mEvents_chan (s : S) (q : List (Nat × Bool × Bool)) : (mEvents s q).chan = s.chan := by
  induction q generalizing s with
  | nil => rfl
  | cons n q ih => simp [mEvents, ih]
@[simp] theorem mEvents_nchan (s : S) (q : List (Nat × Bool × Bool)) : (mEvents s q).nchan = s.nchan := by
  induction q generalizing s with
  | nil => rfl
  | cons n q ih => simp [mEvents, ih]
@[simp] theorem mEvents_mu (s : S) (q : List (Nat × Bool × Bool)) : (mEvents s q).mu = s.mu := by
  induction q generalizing s with
  | nil => rfl
  | cons n q ih => simp [mEvents, ih]
@[simp] theorem mEvents_wg (s : S) (q : List (Nat × Bool × Bool)) : (mEvents s q).wg = s.wg := by
  induction q generalizing s with
  | nil => rfl
  | cons n q ih => simp [mEvents, ih]
@[simp] theorem mEvents_all (s : S) (q : List (Nat × Bool × Bool)) : (mEvents s q).all = s.all := by
  induction q generalizing s with
  | nil => rfl
  | cons n q ih => simp [mEvents, ih]
@[simp] theorem mEvents_allCount (s : S) (q : List (Nat × Bool × Bool)) : (mEvents s q).allCount = s.allCount := by
  induction q generalizing s with
  | nil => rfl
  | cons n q ih => simp [mEvents, ih]
@[simp] theorem mEvents_dlq (s : S) (q : List (Nat × Bool × Bool)) : (mEvents s q).dlq = s.dlq := by
  induction q generalizing s with
  | nil => rfl
  | cons n q ih => simp [mEvents, ih]
@[simp] theorem mEvents_evw (s : S) (q : List (Nat × Bool × Bool)) : (mEvents s q).evw = s.evw := by
  induction q generalizing s with
  | nil => rfl
  | cons n q ih => simp [mEvents, ih]
@[simp] theorem mEvents_nsleepers (s : S) (q : List (Nat × Bool × Bool)) : (mEvents s q).nsleepers = s.nsleepers := by
  induction q generalizing s with
  | nil => rfl
  | cons n q ih => simp [mEvents, ih]
@[simp] theorem mEvents_nlocked (s : S) (q : List (Nat × Bool × Bool)) : (mEvents s q).nlocked = s.nlocked := by
  induction q generalizing s with
  | nil => rfl
  | cons n q ih => simp [mEvents, ih]
@[simp] theorem mEvents_nreceivers (s : S) (q : List (Nat × Bool × Bool)) : (mEvents s q).nreceivers = s.nreceivers := by
  induction q generalizing s with
  | nil => rfl
  | cons n q ih => simp [mEvents, ih]
@[simp] theorem mEvents_nsenders (s : S) (q : List (Nat × Bool × Bool)) : (mEvents s q).nsenders = s.nsenders := by
  induction q generalizing s with
  | nil => rfl
  | cons n q ih => simp [mEvents, ih]
@[simp] theorem mEvents_nwaitgroupers (s : S) (q : List (Nat × Bool × Bool)) : (mEvents s q).nwaitgroupers = s.nwaitgroupers := by
  induction q generalizing s with
  | nil => rfl
  | cons n q ih => simp [mEvents, ih]
@[simp] theorem mEvents_ncondwaiters (s : S) (q : List (Nat × Bool × Bool)) : (mEvents s q).ncondwaiters = s.ncondwaiters := by
  induction q generalizing s with
  | nil => rfl
  | cons n q ih => simp [mEvents, ih]
@[simp] theorem mEvents_nsuspended (s : S) (q : List (Nat × Bool × Bool)) : (mEvents s q).nsuspended = s.nsuspended := by
  induction q generalizing s with
  | nil => rfl
  | cons n q ih => simp [mEvents, ih]
@[simp] theorem mEvents_nevwaiters (s : S) (q : List (Nat × Bool × Bool)) : (mEvents s q).nevwaiters = s.nevwaiters := by
  induction q generalizing s with
  | nil => rfl
  | cons n q ih => simp [mEvents, ih]
@[simp] theorem mEvents_nsigwaiters (s : S) (q : List (Nat × Bool × Bool)) : (mEvents s q).nsigwaiters = s.nsigwaiters := by
  induction q generalizing s with
  | nil => rfl
  | cons n q ih => simp [mEvents, ih]
@[simp] theorem mEvents_nresumers (s : S) (q : List (Nat × Bool × Bool)) : (mEvents s q).nresumers = s.nresumers := by
  induction q generalizing s with
  | nil => rfl
  | cons n q ih => simp [mEvents, ih]
@[simp] theorem mEvents_niowaiters (s : S) (q : List (Nat × Bool × Bool)) : (mEvents s q).niowaiters = s.niowaiters := by
  induction q generalizing s with
  | nil => rfl
  | cons n q ih => simp [mEvents, ih]
@[simp] theorem mEvents_pool (s : S) (q : List (Nat × Bool × Bool)) : (mEvents s q).pool = s.pool := by
  induction q generalizing s with
  | nil => rfl
  | cons n q ih => simp [mEvents, ih]
@[simp] theorem mEvents_sigqueue (s : S) (q : List (Nat × Bool × Bool)) : (mEvents s q).sigqueue = s.sigqueue := by
  induction q generalizing s with
  | nil => rfl
  | cons n q ih => simp [mEvents, ih]
@[simp] theorem mEvents_sigwatchers (s : S) (q : List (Nat × Bool × Bool)) : (mEvents s q).sigwatchers = s.sigwatchers := by
  induction q generalizing s with
  | nil => rfl
  | cons n q ih => simp [mEvents, ih]
@[simp] theorem mEvents_jobs (s : S) (q : List (Nat × Bool × Bool)) : (mEvents s q).jobs = s.jobs := by
  induction q generalizing s with
  | nil => rfl
  | cons n q ih => simp [mEvents, ih]
@[simp] theorem mEvents_clock (s : S) (q : List (Nat × Bool × Bool)) : (mEvents s q).clock = s.clock := by
  induction q generalizing s with
  | nil => rfl
  | cons n q ih => simp [mEvents, ih]
@[simp] theorem mEvents_main (s : S) (q : List (Nat × Bool × Bool)) : (mEvents s q).main = s.main := by
  induction q generalizing s with
  | nil => rfl
  | cons n q ih => simp [mEvents, ih]
@[simp] theorem mEvents_envAsync (s : S) (q : List (Nat × Bool × Bool)) : (mEvents s q).envAsync = s.envAsync := by
  induction q generalizing s with
  | nil => rfl
  | cons n q ih => simp [mEvents, ih]
@[simp] theorem mEvents_envEnabled (s : S) (q : List (Nat × Bool × Bool)) : (mEvents s q).envEnabled = s.envEnabled := by
  induction q generalizing s with
  | nil => rfl
  | cons n q ih => simp [mEvents, ih]
@[simp] theorem mEvents_dead (s : S) (q : List (Nat × Bool × Bool)) : (mEvents s q).dead = s.dead := by
  induction q generalizing s with
  | nil => rfl
  | cons n q ih => simp [mEvents, ih]
@[simp] theorem mEvents_fault (s : S) (q : List (Nat × Bool × Bool)) : (mEvents s q).fault = s.fault := by
  induction q generalizing s with
  | nil => rfl
  | cons n q ih => simp [mEvents, ih]
@[simp] theorem mSig_lists (s : S)  : (mSig s).lists = s.lists := by unfold mSig; (try dsimp only); (repeat' split) <;> simp
@[simp] theorem mSig_chan (s : S)  : (mSig s).chan = s.chan := by unfold mSig; (try dsimp only); (repeat' split) <;> simp
@[simp] theorem mSig_nchan (s : S)  : (mSig s).nchan = s.nchan := by unfold mSig; (try dsimp only); (repeat' split) <;> simp
@[simp] theorem mSig_mu (s : S)  : (mSig s).mu = s.mu := by unfold mSig; (try dsimp only); (repeat' split) <;> simp
@[simp] theorem mSig_wg (s : S)  : (mSig s).wg = s.wg := by unfold mSig; (try dsimp only); (repeat' split) <;> simp
@[simp] theorem mSig_all (s : S)  : (mSig s).all = s.all := by unfold mSig; (try dsimp only); (repeat' split) <;> simp
@[simp] theorem mSig_allCount (s : S)  : (mSig s).allCount = s.allCount := by unfold mSig; (try dsimp only); (repeat' split) <;> simp
@[simp] theorem mSig_dlq (s : S)  : (mSig s).dlq = s.dlq := by unfold mSig; (try dsimp only); (repeat' split) <;> simp
@[simp] theorem mSig_evw (s : S)  : (mSig s).evw = s.evw := by unfold mSig; (try dsimp only); (repeat' split) <;> simp
@[simp] theorem mSig_armed (s : S)  : (mSig s).armed = s.armed := by unfold mSig; (try dsimp only); (repeat' split) <;> simp
@[simp] theorem mSig_nsleepers (s : S)  : (mSig s).nsleepers = s.nsleepers := by unfold mSig; (try dsimp only); (repeat' split) <;> simp
@[simp] theorem mSig_nlocked (s : S)  : (mSig s).nlocked = s.nlocked := by unfold mSig; (try dsimp only); (repeat' split) <;> simp
@[simp] theorem mSig_nreceivers (s : S)  : (mSig s).nreceivers = s.nreceivers := by unfold mSig; (try dsimp only); (repeat' split) <;> simp
@[simp] theorem mSig_nsenders (s : S)  : (mSig s).nsenders = s.nsenders := by unfold mSig; (try dsimp only); (repeat' split) <;> simp
@[simp] theorem mSig_nwaitgroupers (s : S)  : (mSig s).nwaitgroupers = s.nwaitgroupers := by unfold mSig; (try dsimp only); (repeat' split) <;> simp
@[simp] theorem mSig_ncondwaiters (s : S)  : (mSig s).ncondwaiters = s.ncondwaiters := by unfold mSig; (try dsimp only); (repeat' split) <;> simp
@[simp] theorem mSig_nsuspended (s : S)  : (mSig s).nsuspended = s.nsuspended := by unfold mSig; (try dsimp only); (repeat' split) <;> simp
@[simp] theorem mSig_nevwaiters (s : S)  : (mSig s).nevwaiters = s.nevwaiters := by unfold mSig; (try dsimp only); (repeat' split) <;> simp
@[simp] theorem mSig_nsigwaiters (s : S)  : (mSig s).nsigwaiters = s.nsigwaiters := by unfold mSig; (try dsimp only); (repeat' split) <;> simp
@[simp] theorem mSig_nresumers (s : S)  : (mSig s).nresumers = s.nresumers := by unfold mSig; (try dsimp only); (repeat' split) <;> simp
@[simp] theorem mSig_niowaiters (s : S)  : (mSig s).niowaiters = s.niowaiters := by unfold mSig; (try dsimp only); (repeat' split) <;> simp
@[simp] theorem mSig_pool (s : S)  : (mSig s).pool = s.pool := by unfold mSig; (try dsimp only); (repeat' split) <;> simp
@[simp] theorem mSig_sigwatchers (s : S)  : (mSig s).sigwatchers = s.sigwatchers := by unfold mSig; (try dsimp only); (repeat' split) <;> simp
@[simp] theorem mSig_jobs (s : S)  : (mSig s).jobs = s.jobs := by unfold mSig; (try dsimp only); (repeat' split) <;> simp
@[simp] theorem mSig_clock (s : S)  : (mSig s).clock = s.clock := by unfold mSig; (try dsimp only); (repeat' split) <;> simp
@[simp] theorem mSig_main (s : S)  : (mSig s).main = s.main := by unfold mSig; (try dsimp only); (repeat' split) <;> simp
@[simp] theorem mSig_envAsync (s : S)  : (mSig s).envAsync = s.envAsync := by unfold mSig; (try dsimp only); (repeat' split) <;> simp
@[simp] theorem mSig_envEnabled (s : S)  : (mSig s).envEnabled = s.envEnabled := by unfold mSig; (try dsimp only); (repeat' split) <;> simp
@[simp] theorem mSig_fault (s : S)  : (mSig s).fault = s.fault := by unfold mSig; (try dsimp only); (repeat' split) <;> simp
@[simp] theorem markDl_sco (s : S) (q : List Nat) : (markDl s q).sco = s.sco := rfl
@[simp] theorem markDl_lists (s : S) (q : List Nat) : (markDl s q).lists = s.lists := rfl
@[simp] theorem markDl_chan (s : S) (q : List Nat) : (markDl s q).chan = s.chan := rfl
@[simp] theorem markDl_nchan (s : S) (q : List Nat) : (markDl s q).nchan = s.nchan := rfl
@[simp] theorem markDl_mu (s : S) (q : List Nat) : (markDl s q).mu = s.mu := rfl
@[simp] theorem markDl_wg (s : S) (q : List Nat) : (markDl s q).wg = s.wg := rfl
@[simp] theorem markDl_all (s : S) (q : List Nat) : (markDl s q).all = s.all := rfl
@[simp] theorem markDl_allCount (s : S) (q : List Nat) : (markDl s q).allCount = s.allCount := rfl
@[simp] theorem markDl_dlq (s : S) (q : List Nat) : (markDl s q).dlq = s.dlq := rfl
@[simp] theorem markDl_evw (s : S) (q : List Nat) : (markDl s q).evw = s.evw := rfl
@[simp] theorem markDl_armed (s : S) (q : List Nat) : (markDl s q).armed = s.armed := rfl
@[simp] theorem markDl_nsleepers (s : S) (q : List Nat) : (markDl s q).nsleepers = s.nsleepers := rfl
@[simp] theorem markDl_nlocked (s : S) (q : List Nat) : (markDl s q).nlocked = s.nlocked := rfl
@[simp] theorem markDl_nreceivers (s : S) (q : List Nat) : (markDl s q).nreceivers = s.nreceivers := rfl
@[simp] theorem markDl_nsenders (s : S) (q : List Nat) : (markDl s q).nsenders = s.nsenders := rfl
@[simp] theorem markDl_nwaitgroupers (s : S) (q : List Nat) : (markDl s q).nwaitgroupers = s.nwaitgroupers := rfl
@[simp] theorem markDl_ncondwaiters (s : S) (q : List Nat) : (markDl s q).ncondwaiters = s.ncondwaiters := rfl
@[simp] theorem markDl_nsuspended (s : S) (q : List Nat) : (markDl s q).nsuspended = s.nsuspended := rfl
@[simp] theorem markDl_nevwaiters (s : S) (q : List Nat) : (markDl s q).nevwaiters = s.nevwaiters := rfl
@[simp] theorem markDl_nsigwaiters (s : S) (q : List Nat) : (markDl s q).nsigwaiters = s.nsigwaiters := rfl
@[simp] theorem markDl_nresumers (s : S) (q : List Nat) : (markDl s q).nresumers = s.nresumers := rfl
@[simp] theorem markDl_niowaiters (s : S) (q : List Nat) : (markDl s q).niowaiters = s.niowaiters := rfl
@[simp] theorem markDl_pool (s : S) (q : List Nat) : (markDl s q).pool = s.pool := rfl
@[simp] theorem markDl_sigqueue (s : S) (q : List Nat) : (markDl s q).sigqueue = s.sigqueue := rfl
@[simp] theorem markDl_sigwatchers (s : S) (q : List Nat) : (markDl s q).sigwatchers = s.sigwatchers := rfl
@[simp] theorem markDl_jobs (s : S) (q : List Nat) : (markDl s q).jobs = s.jobs := rfl
@[simp] theorem markDl_clock (s : S) (q : List Nat) : (markDl s q).clock = s.clock := rfl
@[simp] theorem markDl_main (s : S) (q : List Nat) : (markDl s q).main = s.main := rfl
@[simp] theorem markDl_envAsync (s : S) (q : List Nat) : (markDl s q).envAsync = s.envAsync := rfl
@[simp] theorem markDl_envEnabled (s : S) (q : List Nat) : (markDl s q).envEnabled = s.envEnabled := rfl
@[simp] theorem markDl_dead (s : S) (q : List Nat) : (markDl s q).dead = s.dead := rfl
@[simp] theorem markDl_fault (s : S) (q : List Nat) : (markDl s q).fault = s.fault := rfl
@[simp] theorem markDl_log (s : S) (q : List Nat) : (markDl s q).log = s.log := rfl
@[simp] theorem mDl_lists (s : S)  : (mDl s).lists = s.lists := by unfold mDl; simp
@[simp] theorem mDl_chan (s : S)  : (mDl s).chan = s.chan := by unfold mDl; simp
@[simp] theorem mDl_nchan (s : S)  : (mDl s).nchan = s.nchan := by unfold mDl; simp
@[simp] theorem mDl_mu (s : S)  : (mDl s).mu = s.mu := by unfold mDl; simp
@[simp] theorem mDl_wg (s : S)  : (mDl s).wg = s.wg := by unfold mDl; simp
@[simp] theorem mDl_all (s : S)  : (mDl s).all = s.all := by unfold mDl; simp
@[simp] theorem mDl_allCount (s : S)  : (mDl s).allCount = s.allCount := by unfold mDl; simp
@[simp] theorem mDl_dlq (s : S)  : (mDl s).dlq = s.dlq := by unfold mDl; simp
@[simp] theorem mDl_evw (s : S)  : (mDl s).evw = s.evw := by unfold mDl; simp
@[simp] theorem mDl_armed (s : S)  : (mDl s).armed = s.armed := by unfold mDl; simp
@[simp] theorem mDl_nsleepers (s : S)  : (mDl s).nsleepers = s.nsleepers := by unfold mDl; simp
@[simp] theorem mDl_nlocked (s : S)  : (mDl s).nlocked = s.nlocked := by unfold mDl; simp
@[simp] theorem mDl_nreceivers (s : S)  : (mDl s).nreceivers = s.nreceivers := by unfold mDl; simp
@[simp] theorem mDl_nsenders (s : S)  : (mDl s).nsenders = s.nsenders := by unfold mDl; simp
@[simp] theorem mDl_nwaitgroupers (s : S)  : (mDl s).nwaitgroupers = s.nwaitgroupers := by unfold mDl; simp
@[simp] theorem mDl_ncondwaiters (s : S)  : (mDl s).ncondwaiters = s.ncondwaiters := by unfold mDl; simp
@[simp] theorem mDl_nsuspended (s : S)  : (mDl s).nsuspended = s.nsuspended := by unfold mDl; simp
@[simp] theorem mDl_nevwaiters (s : S)  : (mDl s).nevwaiters = s.nevwaiters := by unfold mDl; simp
@[simp] theorem mDl_nsigwaiters (s : S)  : (mDl s).nsigwaiters = s.nsigwaiters := by unfold mDl; simp
@[simp] theorem mDl_nresumers (s : S)  : (mDl s).nresumers = s.nresumers := by unfold mDl; simp
@[simp] theorem mDl_niowaiters (s : S)  : (mDl s).niowaiters = s.niowaiters := by unfold mDl; simp
@[simp] theorem mDl_pool (s : S)  : (mDl s).pool = s.pool := by unfold mDl; simp
@[simp] theorem mDl_sigqueue (s : S)  : (mDl s).sigqueue = s.sigqueue := by unfold mDl; simp
@[simp] theorem mDl_sigwatchers (s : S)  : (mDl s).sigwatchers = s.sigwatchers := by unfold mDl; simp
@[simp] theorem mDl_jobs (s : S)  : (mDl s).jobs = s.jobs := by unfold mDl; simp
@[simp] theorem mDl_clock (s : S)  : (mDl s).clock = s.clock := by unfold mDl; simp
@[simp] theorem mDl_main (s : S)  : (mDl s).main = s.main := by unfold mDl; simp
@[simp] theorem mDl_envAsync (s : S)  : (mDl s).envAsync = s.envAsync := by unfold mDl; simp
@[simp] theorem mDl_envEnabled (s : S)  : (mDl s).envEnabled = s.envEnabled := by unfold mDl; simp
@[simp] theorem mDl_dead (s : S)  : (mDl s).dead = s.dead := by unfold mDl; simp
@[simp] theorem mDl_fault (s : S)  : (mDl s).fault = s.fault := by unfold mDl; simp
@[simp] theorem mDl_log (s : S)  : (mDl s).log = s.log := by unfold mDl; simp
@[simp] theorem mRc_sco (s : S)  : (mRc s).sco = s.sco := rfl
@[simp] theorem mRc_co (s : S)  : (mRc s).co = s.co := rfl
@[simp] theorem mRc_lists (s : S)  : (mRc s).lists = s.lists := rfl
@[simp] theorem mRc_chan (s : S)  : (mRc s).chan = s.chan := rfl
@[simp] theorem mRc_nchan (s : S)  : (mRc s).nchan = s.nchan := rfl
@[simp] theorem mRc_mu (s : S)  : (mRc s).mu = s.mu := rfl
@[simp] theorem mRc_wg (s : S)  : (mRc s).wg = s.wg := rfl
@[simp] theorem mRc_all (s : S)  : (mRc s).all = s.all := rfl
@[simp] theorem mRc_allCount (s : S)  : (mRc s).allCount = s.allCount := rfl
@[simp] theorem mRc_dlq (s : S)  : (mRc s).dlq = s.dlq := rfl
@[simp] theorem mRc_evw (s : S)  : (mRc s).evw = s.evw := rfl
@[simp] theorem mRc_armed (s : S)  : (mRc s).armed = s.armed := rfl
@[simp] theorem mRc_nsleepers (s : S)  : (mRc s).nsleepers = s.nsleepers := rfl
@[simp] theorem mRc_nlocked (s : S)  : (mRc s).nlocked = s.nlocked := rfl
@[simp] theorem mRc_nreceivers (s : S)  : (mRc s).nreceivers = s.nreceivers := rfl
@[simp] theorem mRc_nsenders (s : S)  : (mRc s).nsenders = s.nsenders := rfl
@[simp] theorem mRc_nwaitgroupers (s : S)  : (mRc s).nwaitgroupers = s.nwaitgroupers := rfl
@[simp] theorem mRc_ncondwaiters (s : S)  : (mRc s).ncondwaiters = s.ncondwaiters := rfl
@[simp] theorem mRc_nsuspended (s : S)  : (mRc s).nsuspended = s.nsuspended := rfl
@[simp] theorem mRc_nevwaiters (s : S)  : (mRc s).nevwaiters = s.nevwaiters := rfl
@[simp] theorem mRc_nsigwaiters (s : S)  : (mRc s).nsigwaiters = s.nsigwaiters := rfl
@[simp] theorem mRc_nresumers (s : S)  : (mRc s).nresumers = s.nresumers := rfl
@[simp] theorem mRc_niowaiters (s : S)  : (mRc s).niowaiters = s.niowaiters := rfl
@[simp] theorem mRc_sigqueue (s : S)  : (mRc s).sigqueue = s.sigqueue := rfl
@[simp] theorem mRc_sigwatchers (s : S)  : (mRc s).sigwatchers = s.sigwatchers := rfl
@[simp] theorem mRc_jobs (s : S)  : (mRc s).jobs = s.jobs := rfl
@[simp] theorem mRc_clock (s : S)  : (mRc s).clock = s.clock := rfl
@[simp] theorem mRc_main (s : S)  : (mRc s).main = s.main := rfl
@[simp] theorem mRc_envAsync (s : S)  : (mRc s).envAsync = s.envAsync := rfl
@[simp] theorem mRc_envEnabled (s : S)  : (mRc s).envEnabled = s.envEnabled := rfl
@[simp] theorem mRc_dead (s : S)  : (mRc s).dead = s.dead := rfl
@[simp] theorem mRc_fault (s : S)  : (mRc s).fault = s.fault := rfl
@[simp] theorem mRc_log (s : S)  : (mRc s).log = s.log := rfl
theorem recvNow_sco {s : S} {c r : Nat} {ch : Chan} {m : Msg} {o : Option Nat} {t : S} (h : recvNow s c r ch = some (m, o, t)) : t.sco = s.sco := by
  unfold recvNow at h
  (repeat' split at h) <;> simp at h <;> (try exact h.elim) <;> (obtain ⟨_, _, h⟩ := h; rw [← h]) <;> simp
theorem recvNow_co {s : S} {c r : Nat} {ch : Chan} {m : Msg} {o : Option Nat} {t : S} (h : recvNow s c r ch = some (m, o, t)) : t.co = s.co := by
  unfold recvNow at h
  (repeat' split at h) <;> simp at h <;> (try exact h.elim) <;> (obtain ⟨_, _, h⟩ := h; rw [← h]) <;> simp
theorem recvNow_nchan {s : S} {c r : Nat} {ch : Chan} {m : Msg} {o : Option Nat} {t : S} (h : recvNow s c r ch = some (m, o, t)) : t.nchan = s.nchan := by
  unfold recvNow at h
  (repeat' split at h) <;> simp at h <;> (try exact h.elim) <;> (obtain ⟨_, _, h⟩ := h; rw [← h]) <;> simp
theorem recvNow_mu {s : S} {c r : Nat} {ch : Chan} {m : Msg} {o : Option Nat} {t : S} (h : recvNow s c r ch = some (m, o, t)) : t.mu = s.mu := by
  unfold recvNow at h
  (repeat' split at h) <;> simp at h <;> (try exact h.elim) <;> (obtain ⟨_, _, h⟩ := h; rw [← h]) <;> simp
theorem recvNow_wg {s : S} {c r : Nat} {ch : Chan} {m : Msg} {o : Option Nat} {t : S} (h : recvNow s c r ch = some (m, o, t)) : t.wg = s.wg := by
  unfold recvNow at h
  (repeat' split at h) <;> simp at h <;> (try exact h.elim) <;> (obtain ⟨_, _, h⟩ := h; rw [← h]) <;> simp
theorem recvNow_all {s : S} {c r : Nat} {ch : Chan} {m : Msg} {o : Option Nat} {t : S} (h : recvNow s c r ch = some (m, o, t)) : t.all = s.all := by
  unfold recvNow at h
  (repeat' split at h) <;> simp at h <;> (try exact h.elim) <;> (obtain ⟨_, _, h⟩ := h; rw [← h]) <;> simp
theorem recvNow_allCount {s : S} {c r : Nat} {ch : Chan} {m : Msg} {o : Option Nat} {t : S} (h : recvNow s c r ch = some (m, o, t)) : t.allCount = s.allCount := by
  unfold recvNow at h
  (repeat' split at h) <;> simp at h <;> (try exact h.elim) <;> (obtain ⟨_, _, h⟩ := h; rw [← h]) <;> simp
theorem recvNow_dlq {s : S} {c r : Nat} {ch : Chan} {m : Msg} {o : Option Nat} {t : S} (h : recvNow s c r ch = some (m, o, t)) : t.dlq = s.dlq := by
  unfold recvNow at h
  (repeat' split at h) <;> simp at h <;> (try exact h.elim) <;> (obtain ⟨_, _, h⟩ := h; rw [← h]) <;> simp
theorem recvNow_evw {s : S} {c r : Nat} {ch : Chan} {m : Msg} {o : Option Nat} {t : S} (h : recvNow s c r ch = some (m, o, t)) : t.evw = s.evw := by
  unfold recvNow at h
  (repeat' split at h) <;> simp at h <;> (try exact h.elim) <;> (obtain ⟨_, _, h⟩ := h; rw [← h]) <;> simp
theorem recvNow_armed {s : S} {c r : Nat} {ch : Chan} {m : Msg} {o : Option Nat} {t : S} (h : recvNow s c r ch = some (m, o, t)) : t.armed = s.armed := by
  unfold recvNow at h
  (repeat' split at h) <;> simp at h <;> (try exact h.elim) <;> (obtain ⟨_, _, h⟩ := h; rw [← h]) <;> simp
theorem recvNow_nsleepers {s : S} {c r : Nat} {ch : Chan} {m : Msg} {o : Option Nat} {t : S} (h : recvNow s c r ch = some (m, o, t)) : t.nsleepers = s.nsleepers := by
  unfold recvNow at h
  (repeat' split at h) <;> simp at h <;> (try exact h.elim) <;> (obtain ⟨_, _, h⟩ := h; rw [← h]) <;> simp
theorem recvNow_nlocked {s : S} {c r : Nat} {ch : Chan} {m : Msg} {o : Option Nat} {t : S} (h : recvNow s c r ch = some (m, o, t)) : t.nlocked = s.nlocked := by
  unfold recvNow at h
  (repeat' split at h) <;> simp at h <;> (try exact h.elim) <;> (obtain ⟨_, _, h⟩ := h; rw [← h]) <;> simp
theorem recvNow_nreceivers {s : S} {c r : Nat} {ch : Chan} {m : Msg} {o : Option Nat} {t : S} (h : recvNow s c r ch = some (m, o, t)) : t.nreceivers = s.nreceivers := by
  unfold recvNow at h
  (repeat' split at h) <;> simp at h <;> (try exact h.elim) <;> (obtain ⟨_, _, h⟩ := h; rw [← h]) <;> simp
theorem recvNow_nsenders {s : S} {c r : Nat} {ch : Chan} {m : Msg} {o : Option Nat} {t : S} (h : recvNow s c r ch = some (m, o, t)) : t.nsenders = s.nsenders := by
  unfold recvNow at h
  (repeat' split at h) <;> simp at h <;> (try exact h.elim) <;> (obtain ⟨_, _, h⟩ := h; rw [← h]) <;> simp
theorem recvNow_nwaitgroupers {s : S} {c r : Nat} {ch : Chan} {m : Msg} {o : Option Nat} {t : S} (h : recvNow s c r ch = some (m, o, t)) : t.nwaitgroupers = s.nwaitgroupers := by
  unfold recvNow at h
  (repeat' split at h) <;> simp at h <;> (try exact h.elim) <;> (obtain ⟨_, _, h⟩ := h; rw [← h]) <;> simp
theorem recvNow_ncondwaiters {s : S} {c r : Nat} {ch : Chan} {m : Msg} {o : Option Nat} {t : S} (h : recvNow s c r ch = some (m, o, t)) : t.ncondwaiters = s.ncondwaiters := by
  unfold recvNow at h
  (repeat' split at h) <;> simp at h <;> (try exact h.elim) <;> (obtain ⟨_, _, h⟩ := h; rw [← h]) <;> simp
theorem recvNow_nsuspended {s : S} {c r : Nat} {ch : Chan} {m : Msg} {o : Option Nat} {t : S} (h : recvNow s c r ch = some (m, o, t)) : t.nsuspended = s.nsuspended := by
  unfold recvNow at h
  (repeat' split at h) <;> simp at h <;> (try exact h.elim) <;> (obtain ⟨_, _, h⟩ := h; rw [← h]) <;> simp
theorem recvNow_nevwaiters {s : S} {c r : Nat} {ch : Chan} {m : Msg} {o : Option Nat} {t : S} (h : recvNow s c r ch = some (m, o, t)) : t.nevwaiters = s.nevwaiters := by
  unfold recvNow at h
  (repeat' split at h) <;> simp at h <;> (try exact h.elim) <;> (obtain ⟨_, _, h⟩ := h; rw [← h]) <;> simp
theorem recvNow_nsigwaiters {s : S} {c r : Nat} {ch : Chan} {m : Msg} {o : Option Nat} {t : S} (h : recvNow s c r ch = some (m, o, t)) : t.nsigwaiters = s.nsigwaiters := by
  unfold recvNow at h
  (repeat' split at h) <;> simp at h <;> (try exact h.elim) <;> (obtain ⟨_, _, h⟩ := h; rw [← h]) <;> simp
theorem recvNow_nresumers {s : S} {c r : Nat} {ch : Chan} {m : Msg} {o : Option Nat} {t : S} (h : recvNow s c r ch = some (m, o, t)) : t.nresumers = s.nresumers := by
  unfold recvNow at h
  (repeat' split at h) <;> simp at h <;> (try exact h.elim) <;> (obtain ⟨_, _, h⟩ := h; rw [← h]) <;> simp
theorem recvNow_niowaiters {s : S} {c r : Nat} {ch : Chan} {m : Msg} {o : Option Nat} {t : S} (h : recvNow s c r ch = some (m, o, t)) : t.niowaiters = s.niowaiters := by
  unfold recvNow at h
  (repeat' split at h) <;> simp at h <;> (try exact h.elim) <;> (obtain ⟨_, _, h⟩ := h; rw [← h]) <;> simp
theorem recvNow_pool {s : S} {c r : Nat} {ch : Chan} {m : Msg} {o : Option Nat} {t : S} (h : recvNow s c r ch = some (m, o, t)) : t.pool = s.pool := by
  unfold recvNow at h
  (repeat' split at h) <;> simp at h <;> (try exact h.elim) <;> (obtain ⟨_, _, h⟩ := h; rw [← h]) <;> simp
theorem recvNow_sigqueue {s : S} {c r : Nat} {ch : Chan} {m : Msg} {o : Option Nat} {t : S} (h : recvNow s c r ch = some (m, o, t)) : t.sigqueue = s.sigqueue := by
  unfold recvNow at h
  (repeat' split at h) <;> simp at h <;> (try exact h.elim) <;> (obtain ⟨_, _, h⟩ := h; rw [← h]) <;> simp
theorem recvNow_sigwatchers {s : S} {c r : Nat} {ch : Chan} {m : Msg} {o : Option Nat} {t : S} (h : recvNow s c r ch = some (m, o, t)) : t.sigwatchers = s.sigwatchers := by
  unfold recvNow at h
  (repeat' split at h) <;> simp at h <;> (try exact h.elim) <;> (obtain ⟨_, _, h⟩ := h; rw [← h]) <;> simp
theorem recvNow_jobs {s : S} {c r : Nat} {ch : Chan} {m : Msg} {o : Option Nat} {t : S} (h : recvNow s c r ch = some (m, o, t)) : t.jobs = s.jobs := by
  unfold recvNow at h
  (repeat' split at h) <;> simp at h <;> (try exact h.elim) <;> (obtain ⟨_, _, h⟩ := h; rw [← h]) <;> simp
theorem recvNow_clock {s : S} {c r : Nat} {ch : Chan} {m : Msg} {o : Option Nat} {t : S} (h : recvNow s c r ch = some (m, o, t)) : t.clock = s.clock := by
  unfold recvNow at h
  (repeat' split at h) <;> simp at h <;> (try exact h.elim) <;> (obtain ⟨_, _, h⟩ := h; rw [← h]) <;> simp
theorem recvNow_main {s : S} {c r : Nat} {ch : Chan} {m : Msg} {o : Option Nat} {t : S} (h : recvNow s c r ch = some (m, o, t)) : t.main = s.main := by
  unfold recvNow at h
  (repeat' split at h) <;> simp at h <;> (try exact h.elim) <;> (obtain ⟨_, _, h⟩ := h; rw [← h]) <;> simp
theorem recvNow_envAsync {s : S} {c r : Nat} {ch : Chan} {m : Msg} {o : Option Nat} {t : S} (h : recvNow s c r ch = some (m, o, t)) : t.envAsync = s.envAsync := by
  unfold recvNow at h
  (repeat' split at h) <;> simp at h <;> (try exact h.elim) <;> (obtain ⟨_, _, h⟩ := h; rw [← h]) <;> simp
theorem recvNow_envEnabled {s : S} {c r : Nat} {ch : Chan} {m : Msg} {o : Option Nat} {t : S} (h : recvNow s c r ch = some (m, o, t)) : t.envEnabled = s.envEnabled := by
  unfold recvNow at h
  (repeat' split at h) <;> simp at h <;> (try exact h.elim) <;> (obtain ⟨_, _, h⟩ := h; rw [← h]) <;> simp
theorem recvNow_dead {s : S} {c r : Nat} {ch : Chan} {m : Msg} {o : Option Nat} {t : S} (h : recvNow s c r ch = some (m, o, t)) : t.dead = s.dead := by
  unfold recvNow at h
  (repeat' split at h) <;> simp at h <;> (try exact h.elim) <;> (obtain ⟨_, _, h⟩ := h; rw [← h]) <;> simp
@[simp] theorem chanRecv_nchan (s : S) (i c : Nat) (try' : Bool) (dl : Int) : (chanRecv s i c try' dl).nchan = s.nchan := by
  unfold chanRecv; (try dsimp only); (repeat' split) <;> (first | (rename_i h; simp [recvNow_nchan h]) | simp)
@[simp] theorem chanRecv_mu (s : S) (i c : Nat) (try' : Bool) (dl : Int) : (chanRecv s i c try' dl).mu = s.mu := by
  unfold chanRecv; (try dsimp only); (repeat' split) <;> (first | (rename_i h; simp [recvNow_mu h]) | simp)
@[simp] theorem chanRecv_wg (s : S) (i c : Nat) (try' : Bool) (dl : Int) : (chanRecv s i c try' dl).wg = s.wg := by
  unfold chanRecv; (try dsimp only); (repeat' split) <;> (first | (rename_i h; simp [recvNow_wg h]) | simp)
@[simp] theorem chanRecv_all (s : S) (i c : Nat) (try' : Bool) (dl : Int) : (chanRecv s i c try' dl).all = s.all := by
  unfold chanRecv; (try dsimp only); (repeat' split) <;> (first | (rename_i h; simp [recvNow_all h]) | simp)
@[simp] theorem chanRecv_allCount (s : S) (i c : Nat) (try' : Bool) (dl : Int) : (chanRecv s i c try' dl).allCount = s.allCount := by
  unfold chanRecv; (try dsimp only); (repeat' split) <;> (first | (rename_i h; simp [recvNow_allCount h]) | simp)
@[simp] theorem chanRecv_evw (s : S) (i c : Nat) (try' : Bool) (dl : Int) : (chanRecv s i c try' dl).evw = s.evw := by
  unfold chanRecv; (try dsimp only); (repeat' split) <;> (first | (rename_i h; simp [recvNow_evw h]) | simp)
@[simp] theorem chanRecv_armed (s : S) (i c : Nat) (try' : Bool) (dl : Int) : (chanRecv s i c try' dl).armed = s.armed := by
  unfold chanRecv; (try dsimp only); (repeat' split) <;> (first | (rename_i h; simp [recvNow_armed h]) | simp)
@[simp] theorem chanRecv_nsleepers (s : S) (i c : Nat) (try' : Bool) (dl : Int) : (chanRecv s i c try' dl).nsleepers = s.nsleepers := by
  unfold chanRecv; (try dsimp only); (repeat' split) <;> (first | (rename_i h; simp [recvNow_nsleepers h]) | simp)
@[simp] theorem chanRecv_nlocked (s : S) (i c : Nat) (try' : Bool) (dl : Int) : (chanRecv s i c try' dl).nlocked = s.nlocked := by
  unfold chanRecv; (try dsimp only); (repeat' split) <;> (first | (rename_i h; simp [recvNow_nlocked h]) | simp)
@[simp] theorem chanRecv_nsenders (s : S) (i c : Nat) (try' : Bool) (dl : Int) : (chanRecv s i c try' dl).nsenders = s.nsenders := by
  unfold chanRecv; (try dsimp only); (repeat' split) <;> (first | (rename_i h; simp [recvNow_nsenders h]) | simp)
@[simp] theorem chanRecv_nwaitgroupers (s : S) (i c : Nat) (try' : Bool) (dl : Int) : (chanRecv s i c try' dl).nwaitgroupers = s.nwaitgroupers := by
  unfold chanRecv; (try dsimp only); (repeat' split) <;> (first | (rename_i h; simp [recvNow_nwaitgroupers h]) | simp)
@[simp] theorem chanRecv_ncondwaiters (s : S) (i c : Nat) (try' : Bool) (dl : Int) : (chanRecv s i c try' dl).ncondwaiters = s.ncondwaiters := by
  unfold chanRecv; (try dsimp only); (repeat' split) <;> (first | (rename_i h; simp [recvNow_ncondwaiters h]) | simp)
@[simp] theorem chanRecv_nsuspended (s : S) (i c : Nat) (try' : Bool) (dl : Int) : (chanRecv s i c try' dl).nsuspended = s.nsuspended := by
  unfold chanRecv; (try dsimp only); (repeat' split) <;> (first | (rename_i h; simp [recvNow_nsuspended h]) | simp)
@[simp] theorem chanRecv_nevwaiters (s : S) (i c : Nat) (try' : Bool) (dl : Int) : (chanRecv s i c try' dl).nevwaiters = s.nevwaiters := by
  unfold chanRecv; (try dsimp only); (repeat' split) <;> (first | (rename_i h; simp [recvNow_nevwaiters h]) | simp)
@[simp] theorem chanRecv_nsigwaiters (s : S) (i c : Nat) (try' : Bool) (dl : Int) : (chanRecv s i c try' dl).nsigwaiters = s.nsigwaiters := by
  unfold chanRecv; (try dsimp only); (repeat' split) <;> (first | (rename_i h; simp [recvNow_nsigwaiters h]) | simp)
@[simp] theorem chanRecv_nresumers (s : S) (i c : Nat) (try' : Bool) (dl : Int) : (chanRecv s i c try' dl).nresumers = s.nresumers := by
  unfold chanRecv; (try dsimp only); (repeat' split) <;> (first | (rename_i h; simp [recvNow_nresumers h]) | simp)
@[simp] theorem chanRecv_niowaiters (s : S) (i c : Nat) (try' : Bool) (dl : Int) : (chanRecv s i c try' dl).niowaiters = s.niowaiters := by
  unfold chanRecv; (try dsimp only); (repeat' split) <;> (first | (rename_i h; simp [recvNow_niowaiters h]) | simp)
@[simp] theorem chanRecv_pool (s : S) (i c : Nat) (try' : Bool) (dl : Int) : (chanRecv s i c try' dl).pool = s.pool := by
  unfold chanRecv; (try dsimp only); (repeat' split) <;> (first | (rename_i h; simp [recvNow_pool h]) | simp)
@[simp] theorem chanRecv_sigqueue (s : S) (i c : Nat) (try' : Bool) (dl : Int) : (chanRecv s i c try' dl).sigqueue = s.sigqueue := by
  unfold chanRecv; (try dsimp only); (repeat' split) <;> (first | (rename_i h; simp [recvNow_sigqueue h]) | simp)
@[simp] theorem chanRecv_sigwatchers (s : S) (i c : Nat) (try' : Bool) (dl : Int) : (chanRecv s i c try' dl).sigwatchers = s.sigwatchers := by
  unfold chanRecv; (try dsimp only); (repeat' split) <;> (first | (rename_i h; simp [recvNow_sigwatchers h]) | simp)
@[simp] theorem chanRecv_jobs (s : S) (i c : Nat) (try' : Bool) (dl : Int) : (chanRecv s i c try' dl).jobs = s.jobs := by
  unfold chanRecv; (try dsimp only); (repeat' split) <;> (first | (rename_i h; simp [recvNow_jobs h]) | simp)
@[simp] theorem chanRecv_clock (s : S) (i c : Nat) (try' : Bool) (dl : Int) : (chanRecv s i c try' dl).clock = s.clock := by
  unfold chanRecv; (try dsimp only); (repeat' split) <;> (first | (rename_i h; simp [recvNow_clock h]) | simp)
@[simp] theorem chanRecv_main (s : S) (i c : Nat) (try' : Bool) (dl : Int) : (chanRecv s i c try' dl).main = s.main := by
  unfold chanRecv; (try dsimp only); (repeat' split) <;> (first | (rename_i h; simp [recvNow_main h]) | simp)
@[simp] theorem chanRecv_envAsync (s : S) (i c : Nat) (try' : Bool) (dl : Int) : (chanRecv s i c try' dl).envAsync = s.envAsync := by
  unfold chanRecv; (try dsimp only); (repeat' split) <;> (first | (rename_i h; simp [recvNow_envAsync h]) | simp)
@[simp] theorem chanRecv_envEnabled (s : S) (i c : Nat) (try' : Bool) (dl : Int) : (chanRecv s i c try' dl).envEnabled = s.envEnabled := by
  unfold chanRecv; (try dsimp only); (repeat' split) <;> (first | (rename_i h; simp [recvNow_envEnabled h]) | simp)
@[simp] theorem chanRecv_dead (s : S) (i c : Nat) (try' : Bool) (dl : Int) : (chanRecv s i c try' dl).dead = s.dead := by
  unfold chanRecv; (try dsimp only); (repeat' split) <;> (first | (rename_i h; simp [recvNow_dead h]) | simp)
@[simp] theorem chanSelect_nchan (s : S) (i : Nat) (cs : List Nat) (dl : Int) (try' : Bool) : (chanSelect s i cs dl try').nchan = s.nchan := by
  unfold chanSelect; (try dsimp only); (repeat' split) <;> (first | (rename_i h; simp [recvNow_nchan h]) | simp)
@[simp] theorem chanSelect_mu (s : S) (i : Nat) (cs : List Nat) (dl : Int) (try' : Bool) : (chanSelect s i cs dl try').mu = s.mu := by
  unfold chanSelect; (try dsimp only); (repeat' split) <;> (first | (rename_i h; simp [recvNow_mu h]) | simp)
@[simp] theorem chanSelect_wg (s : S) (i : Nat) (cs : List Nat) (dl : Int) (try' : Bool) : (chanSelect s i cs dl try').wg = s.wg := by
  unfold chanSelect; (try dsimp only); (repeat' split) <;> (first | (rename_i h; simp [recvNow_wg h]) | simp)
@[simp] theorem chanSelect_all (s : S) (i : Nat) (cs : List Nat) (dl : Int) (try' : Bool) : (chanSelect s i cs dl try').all = s.all := by
  unfold chanSelect; (try dsimp only); (repeat' split) <;> (first | (rename_i h; simp [recvNow_all h]) | simp)
@[simp] theorem chanSelect_allCount (s : S) (i : Nat) (cs : List Nat) (dl : Int) (try' : Bool) : (chanSelect s i cs dl try').allCount = s.allCount := by
  unfold chanSelect; (try dsimp only); (repeat' split) <;> (first | (rename_i h; simp [recvNow_allCount h]) | simp)
@[simp] theorem chanSelect_evw (s : S) (i : Nat) (cs : List Nat) (dl : Int) (try' : Bool) : (chanSelect s i cs dl try').evw = s.evw := by
  unfold chanSelect; (try dsimp only); (repeat' split) <;> (first | (rename_i h; simp [recvNow_evw h]) | simp)
@[simp] theorem chanSelect_armed (s : S) (i : Nat) (cs : List Nat) (dl : Int) (try' : Bool) : (chanSelect s i cs dl try').armed = s.armed := by
  unfold chanSelect; (try dsimp only); (repeat' split) <;> (first | (rename_i h; simp [recvNow_armed h]) | simp)
@[simp] theorem chanSelect_nsleepers (s : S) (i : Nat) (cs : List Nat) (dl : Int) (try' : Bool) : (chanSelect s i cs dl try').nsleepers = s.nsleepers := by
  unfold chanSelect; (try dsimp only); (repeat' split) <;> (first | (rename_i h; simp [recvNow_nsleepers h]) | simp)
@[simp] theorem chanSelect_nlocked (s : S) (i : Nat) (cs : List Nat) (dl : Int) (try' : Bool) : (chanSelect s i cs dl try').nlocked = s.nlocked := by
  unfold chanSelect; (try dsimp only); (repeat' split) <;> (first | (rename_i h; simp [recvNow_nlocked h]) | simp)
@[simp] theorem chanSelect_nsenders (s : S) (i : Nat) (cs : List Nat) (dl : Int) (try' : Bool) : (chanSelect s i cs dl try').nsenders = s.nsenders := by
  unfold chanSelect; (try dsimp only); (repeat' split) <;> (first | (rename_i h; simp [recvNow_nsenders h]) | simp)
@[simp] theorem chanSelect_nwaitgroupers (s : S) (i : Nat) (cs : List Nat) (dl : Int) (try' : Bool) : (chanSelect s i cs dl try').nwaitgroupers = s.nwaitgroupers := by
  unfold chanSelect; (try dsimp only); (repeat' split) <;> (first | (rename_i h; simp [recvNow_nwaitgroupers h]) | simp)
@[simp] theorem chanSelect_ncondwaiters (s : S) (i : Nat) (cs : List Nat) (dl : Int) (try' : Bool) : (chanSelect s i cs dl try').ncondwaiters = s.ncondwaiters := by
  unfold chanSelect; (try dsimp only); (repeat' split) <;> (first | (rename_i h; simp [recvNow_ncondwaiters h]) | simp)
@[simp] theorem chanSelect_nsuspended (s : S) (i : Nat) (cs : List Nat) (dl : Int) (try' : Bool) : (chanSelect s i cs dl try').nsuspended = s.nsuspended := by
  unfold chanSelect; (try dsimp only); (repeat' split) <;> (first | (rename_i h; simp [recvNow_nsuspended h]) | simp)
@[simp] theorem chanSelect_nevwaiters (s : S) (i : Nat) (cs : List Nat) (dl : Int) (try' : Bool) : (chanSelect s i cs dl try').nevwaiters = s.nevwaiters := by
  unfold chanSelect; (try dsimp only); (repeat' split) <;> (first | (rename_i h; simp [recvNow_nevwaiters h]) | simp)
@[simp] theorem chanSelect_nsigwaiters (s : S) (i : Nat) (cs : List Nat) (dl : Int) (try' : Bool) : (chanSelect s i cs dl try').nsigwaiters = s.nsigwaiters := by
  unfold chanSelect; (try dsimp only); (repeat' split) <;> (first | (rename_i h; simp [recvNow_nsigwaiters h]) | simp)
@[simp] theorem chanSelect_nresumers (s : S) (i : Nat) (cs : List Nat) (dl : Int) (try' : Bool) : (chanSelect s i cs dl try').nresumers = s.nresumers := by
  unfold chanSelect; (try dsimp only); (repeat' split) <;> (first | (rename_i h; simp [recvNow_nresumers h]) | simp)
@[simp] theorem chanSelect_niowaiters (s : S) (i : Nat) (cs : List Nat) (dl : Int) (try' : Bool) : (chanSelect s i cs dl try').niowaiters = s.niowaiters := by
  unfold chanSelect; (try dsimp only); (repeat' split) <;> (first | (rename_i h; simp [recvNow_niowaiters h]) | simp)
@[simp] theorem chanSelect_pool (s : S) (i : Nat) (cs : List Nat) (dl : Int) (try' : Bool) : (chanSelect s i cs dl try').pool = s.pool := by
  unfold chanSelect; (try dsimp only); (repeat' split) <;> (first | (rename_i h; simp [recvNow_pool h]) | simp)
@[simp] theorem chanSelect_sigqueue (s : S) (i : Nat) (cs : List Nat) (dl : Int) (try' : Bool) : (chanSelect s i cs dl try').sigqueue = s.sigqueue := by
  unfold chanSelect; (try dsimp only); (repeat' split) <;> (first | (rename_i h; simp [recvNow_sigqueue h]) | simp)
@[simp] theorem chanSelect_sigwatchers (s : S) (i : Nat) (cs : List Nat) (dl : Int) (try' : Bool) : (chanSelect s i cs dl try').sigwatchers = s.sigwatchers := by
  unfold chanSelect; (try dsimp only); (repeat' split) <;> (first | (rename_i h; simp [recvNow_sigwatchers h]) | simp)
@[simp] theorem chanSelect_jobs (s : S) (i : Nat) (cs : List Nat) (dl : Int) (try' : Bool) : (chanSelect s i cs dl try').jobs = s.jobs := by
  unfold chanSelect; (try dsimp only); (repeat' split) <;> (first | (rename_i h; simp [recvNow_jobs h]) | simp)
@[simp] theorem chanSelect_clock (s : S) (i : Nat) (cs : List Nat) (dl : Int) (try' : Bool) : (chanSelect s i cs dl try').clock = s.clock := by
  unfold chanSelect; (try dsimp only); (repeat' split) <;> (first | (rename_i h; simp [recvNow_clock h]) | simp)
@[simp] theorem chanSelect_main (s : S) (i : Nat) (cs : List Nat) (dl : Int) (try' : Bool) : (chanSelect s i cs dl try').main = s.main := by
  unfold chanSelect; (try dsimp only); (repeat' split) <;> (first | (rename_i h; simp [recvNow_main h]) | simp)
@[simp] theorem chanSelect_envAsync (s : S) (i : Nat) (cs : List Nat) (dl : Int) (try' : Bool) : (chanSelect s i cs dl try').envAsync = s.envAsync := by
  unfold chanSelect; (try dsimp only); (repeat' split) <;> (first | (rename_i h; simp [recvNow_envAsync h]) | simp)
@[simp] theorem chanSelect_envEnabled (s : S) (i : Nat) (cs : List Nat) (dl : Int) (try' : Bool) : (chanSelect s i cs dl try').envEnabled = s.envEnabled := by
  unfold chanSelect; (try dsimp only); (repeat' split) <;> (first | (rename_i h; simp [recvNow_envEnabled h]) | simp)
@[simp] theorem chanSelect_dead (s : S) (i : Nat) (cs : List Nat) (dl : Int) (try' : Bool) : (chanSelect s i cs dl try').dead = s.dead := by
  unfold chanSelect; (try dsimp only); (repeat' split) <;> (first | (rename_i h; simp [recvNow_dead h]) | simp)

end Neco.Rt
