import Verif.Sock.Inv

/-!
# Which members each operation leaves alone
-/

namespace Fizz.Sock

@[simp] theorem say_connected (s : St) (o) : (s.say o).connected = s.connected := rfl
@[simp] theorem say_cb (s : St) (o) : (s.say o).cb = s.cb := rfl
@[simp] theorem say_early (s : St) (o) : (s.say o).early = s.early := rfl
@[simp] theorem say_hsPend (s : St) (o) : (s.say o).hsPend = s.hsPend := rfl
@[simp] theorem say_replayCb (s : St) (o) : (s.say o).replayCb = s.replayCb := rfl
@[simp] theorem say_bytes (s : St) (o) : (s.say o).bytes = s.bytes := rfl
@[simp] theorem say_queue (s : St) (o) : (s.say o).queue = s.queue := rfl
@[simp] theorem say_extErr (s : St) (o) : (s.say o).extErr = s.extErr := rfl
@[simp] theorem say_smErr (s : St) (o) : (s.say o).smErr = s.smErr := rfl
@[simp] theorem say_smClosed (s : St) (o) : (s.say o).smClosed = s.smClosed := rfl
@[simp] theorem say_guard (s : St) (o) : (s.say o).guard = s.guard := rfl
@[simp] theorem say_susp (s : St) (o) : (s.say o).susp = s.susp := rfl
@[simp] theorem say_inProc (s : St) (o) : (s.say o).inProc = s.inProc := rfl
@[simp] theorem say_phase (s : St) (o) : (s.say o).phase = s.phase := rfl
@[simp] theorem say_tGood (s : St) (o) : (s.say o).tGood = s.tGood := rfl
@[simp] theorem say_tErr (s : St) (o) : (s.say o).tErr = s.tErr := rfl
@[simp] theorem say_tConn (s : St) (o) : (s.say o).tConn = s.tConn := rfl
@[simp] theorem say_nextId (s : St) (o) : (s.say o).nextId = s.nextId := rfl
@[simp] theorem say_stack (s : St) (o) : (s.say o).stack = s.stack := rfl

@[simp] theorem push_connected (s : St) (fs) : (s.push fs).connected = s.connected := rfl
@[simp] theorem push_cb (s : St) (fs) : (s.push fs).cb = s.cb := rfl
@[simp] theorem push_early (s : St) (fs) : (s.push fs).early = s.early := rfl
@[simp] theorem push_hsPend (s : St) (fs) : (s.push fs).hsPend = s.hsPend := rfl
@[simp] theorem push_replayCb (s : St) (fs) : (s.push fs).replayCb = s.replayCb := rfl
@[simp] theorem push_bytes (s : St) (fs) : (s.push fs).bytes = s.bytes := rfl
@[simp] theorem push_queue (s : St) (fs) : (s.push fs).queue = s.queue := rfl
@[simp] theorem push_extErr (s : St) (fs) : (s.push fs).extErr = s.extErr := rfl
@[simp] theorem push_smErr (s : St) (fs) : (s.push fs).smErr = s.smErr := rfl
@[simp] theorem push_smClosed (s : St) (fs) : (s.push fs).smClosed = s.smClosed := rfl
@[simp] theorem push_guard (s : St) (fs) : (s.push fs).guard = s.guard := rfl
@[simp] theorem push_susp (s : St) (fs) : (s.push fs).susp = s.susp := rfl
@[simp] theorem push_inProc (s : St) (fs) : (s.push fs).inProc = s.inProc := rfl
@[simp] theorem push_phase (s : St) (fs) : (s.push fs).phase = s.phase := rfl
@[simp] theorem push_tGood (s : St) (fs) : (s.push fs).tGood = s.tGood := rfl
@[simp] theorem push_tErr (s : St) (fs) : (s.push fs).tErr = s.tErr := rfl
@[simp] theorem push_tConn (s : St) (fs) : (s.push fs).tConn = s.tConn := rfl
@[simp] theorem push_nextId (s : St) (fs) : (s.push fs).nextId = s.nextId := rfl
@[simp] theorem push_log (s : St) (fs) : (s.push fs).log = s.log := rfl

@[simp] theorem enter_connected (s : St) : (s.enter).connected = s.connected := by unfold St.enter; split <;> rfl
@[simp] theorem enter_cb (s : St) : (s.enter).cb = s.cb := by unfold St.enter; split <;> rfl
@[simp] theorem enter_early (s : St) : (s.enter).early = s.early := by unfold St.enter; split <;> rfl
@[simp] theorem enter_hsPend (s : St) : (s.enter).hsPend = s.hsPend := by unfold St.enter; split <;> rfl
@[simp] theorem enter_replayCb (s : St) : (s.enter).replayCb = s.replayCb := by unfold St.enter; split <;> rfl
@[simp] theorem enter_bytes (s : St) : (s.enter).bytes = s.bytes := by unfold St.enter; split <;> rfl
@[simp] theorem enter_queue (s : St) : (s.enter).queue = s.queue := by unfold St.enter; split <;> rfl
@[simp] theorem enter_extErr (s : St) : (s.enter).extErr = s.extErr := by unfold St.enter; split <;> rfl
@[simp] theorem enter_smErr (s : St) : (s.enter).smErr = s.smErr := by unfold St.enter; split <;> rfl
@[simp] theorem enter_smClosed (s : St) : (s.enter).smClosed = s.smClosed := by unfold St.enter; split <;> rfl
@[simp] theorem enter_guard (s : St) : (s.enter).guard = s.guard := by unfold St.enter; split <;> rfl
@[simp] theorem enter_susp (s : St) : (s.enter).susp = s.susp := by unfold St.enter; split <;> rfl
@[simp] theorem enter_phase (s : St) : (s.enter).phase = s.phase := by unfold St.enter; split <;> rfl
@[simp] theorem enter_tGood (s : St) : (s.enter).tGood = s.tGood := by unfold St.enter; split <;> rfl
@[simp] theorem enter_tErr (s : St) : (s.enter).tErr = s.tErr := by unfold St.enter; split <;> rfl
@[simp] theorem enter_tConn (s : St) : (s.enter).tConn = s.tConn := by unfold St.enter; split <;> rfl
@[simp] theorem enter_nextId (s : St) : (s.enter).nextId = s.nextId := by unfold St.enter; split <;> rfl
@[simp] theorem enter_log (s : St) : (s.enter).log = s.log := by unfold St.enter; split <;> rfl

@[simp] theorem submit_connected (s : St) (e) : (s.submit e).connected = s.connected := rfl
@[simp] theorem submit_cb (s : St) (e) : (s.submit e).cb = s.cb := rfl
@[simp] theorem submit_early (s : St) (e) : (s.submit e).early = s.early := rfl
@[simp] theorem submit_hsPend (s : St) (e) : (s.submit e).hsPend = s.hsPend := rfl
@[simp] theorem submit_replayCb (s : St) (e) : (s.submit e).replayCb = s.replayCb := rfl
@[simp] theorem submit_bytes (s : St) (e) : (s.submit e).bytes = s.bytes := rfl
@[simp] theorem submit_extErr (s : St) (e) : (s.submit e).extErr = s.extErr := rfl
@[simp] theorem submit_smErr (s : St) (e) : (s.submit e).smErr = s.smErr := rfl
@[simp] theorem submit_smClosed (s : St) (e) : (s.submit e).smClosed = s.smClosed := rfl
@[simp] theorem submit_guard (s : St) (e) : (s.submit e).guard = s.guard := rfl
@[simp] theorem submit_susp (s : St) (e) : (s.submit e).susp = s.susp := rfl
@[simp] theorem submit_inProc (s : St) (e) : (s.submit e).inProc = s.inProc := rfl
@[simp] theorem submit_phase (s : St) (e) : (s.submit e).phase = s.phase := rfl
@[simp] theorem submit_tGood (s : St) (e) : (s.submit e).tGood = s.tGood := rfl
@[simp] theorem submit_tErr (s : St) (e) : (s.submit e).tErr = s.tErr := rfl
@[simp] theorem submit_tConn (s : St) (e) : (s.submit e).tConn = s.tConn := rfl
@[simp] theorem submit_nextId (s : St) (e) : (s.submit e).nextId = s.nextId := rfl
@[simp] theorem submit_stack (s : St) (e) : (s.submit e).stack = s.stack := rfl

@[simp] theorem count_connected (cfg) (s : St) (n) : (s.count cfg n).connected = s.connected := by unfold St.count; split <;> rfl
@[simp] theorem count_cb (cfg) (s : St) (n) : (s.count cfg n).cb = s.cb := by unfold St.count; split <;> rfl
@[simp] theorem count_hsPend (cfg) (s : St) (n) : (s.count cfg n).hsPend = s.hsPend := by unfold St.count; split <;> rfl
@[simp] theorem count_replayCb (cfg) (s : St) (n) : (s.count cfg n).replayCb = s.replayCb := by unfold St.count; split <;> rfl
@[simp] theorem count_extErr (cfg) (s : St) (n) : (s.count cfg n).extErr = s.extErr := by unfold St.count; split <;> rfl
@[simp] theorem count_smErr (cfg) (s : St) (n) : (s.count cfg n).smErr = s.smErr := by unfold St.count; split <;> rfl
@[simp] theorem count_smClosed (cfg) (s : St) (n) : (s.count cfg n).smClosed = s.smClosed := by unfold St.count; split <;> rfl
@[simp] theorem count_guard (cfg) (s : St) (n) : (s.count cfg n).guard = s.guard := by unfold St.count; split <;> rfl
@[simp] theorem count_susp (cfg) (s : St) (n) : (s.count cfg n).susp = s.susp := by unfold St.count; split <;> rfl
@[simp] theorem count_inProc (cfg) (s : St) (n) : (s.count cfg n).inProc = s.inProc := by unfold St.count; split <;> rfl
@[simp] theorem count_phase (cfg) (s : St) (n) : (s.count cfg n).phase = s.phase := by unfold St.count; split <;> rfl
@[simp] theorem count_tGood (cfg) (s : St) (n) : (s.count cfg n).tGood = s.tGood := by unfold St.count; split <;> rfl
@[simp] theorem count_tErr (cfg) (s : St) (n) : (s.count cfg n).tErr = s.tErr := by unfold St.count; split <;> rfl
@[simp] theorem count_tConn (cfg) (s : St) (n) : (s.count cfg n).tConn = s.tConn := by unfold St.count; split <;> rfl
@[simp] theorem count_nextId (cfg) (s : St) (n) : (s.count cfg n).nextId = s.nextId := by unfold St.count; split <;> rfl
@[simp] theorem count_stack (cfg) (s : St) (n) : (s.count cfg n).stack = s.stack := by unfold St.count; split <;> rfl

@[simp] theorem flush1_connected (cfg) (s : St) (w) : (s.flush1 cfg w).connected = s.connected := by unfold St.flush1; simp
@[simp] theorem flush1_cb (cfg) (s : St) (w) : (s.flush1 cfg w).cb = s.cb := by unfold St.flush1; simp
@[simp] theorem flush1_hsPend (cfg) (s : St) (w) : (s.flush1 cfg w).hsPend = s.hsPend := by unfold St.flush1; simp
@[simp] theorem flush1_replayCb (cfg) (s : St) (w) : (s.flush1 cfg w).replayCb = s.replayCb := by unfold St.flush1; simp
@[simp] theorem flush1_extErr (cfg) (s : St) (w) : (s.flush1 cfg w).extErr = s.extErr := by unfold St.flush1; simp
@[simp] theorem flush1_smErr (cfg) (s : St) (w) : (s.flush1 cfg w).smErr = s.smErr := by unfold St.flush1; simp
@[simp] theorem flush1_smClosed (cfg) (s : St) (w) : (s.flush1 cfg w).smClosed = s.smClosed := by unfold St.flush1; simp
@[simp] theorem flush1_guard (cfg) (s : St) (w) : (s.flush1 cfg w).guard = s.guard := by unfold St.flush1; simp
@[simp] theorem flush1_susp (cfg) (s : St) (w) : (s.flush1 cfg w).susp = s.susp := by unfold St.flush1; simp
@[simp] theorem flush1_inProc (cfg) (s : St) (w) : (s.flush1 cfg w).inProc = s.inProc := by unfold St.flush1; simp
@[simp] theorem flush1_phase (cfg) (s : St) (w) : (s.flush1 cfg w).phase = s.phase := by unfold St.flush1; simp
@[simp] theorem flush1_tGood (cfg) (s : St) (w) : (s.flush1 cfg w).tGood = s.tGood := by unfold St.flush1; simp
@[simp] theorem flush1_tErr (cfg) (s : St) (w) : (s.flush1 cfg w).tErr = s.tErr := by unfold St.flush1; simp
@[simp] theorem flush1_tConn (cfg) (s : St) (w) : (s.flush1 cfg w).tConn = s.tConn := by unfold St.flush1; simp
@[simp] theorem flush1_nextId (cfg) (s : St) (w) : (s.flush1 cfg w).nextId = s.nextId := by unfold St.flush1; simp
@[simp] theorem flush1_stack (cfg) (s : St) (w) : (s.flush1 cfg w).stack = s.stack := by unfold St.flush1; simp

@[simp] theorem flush_connected (cfg) (s : St) (ws) : (s.flush cfg ws).connected = s.connected := by
  induction ws generalizing s with
  | nil => rfl
  | cons w ws ih => exact (ih _).trans (by simp)
@[simp] theorem flush_cb (cfg) (s : St) (ws) : (s.flush cfg ws).cb = s.cb := by
  induction ws generalizing s with
  | nil => rfl
  | cons w ws ih => exact (ih _).trans (by simp)
@[simp] theorem flush_hsPend (cfg) (s : St) (ws) : (s.flush cfg ws).hsPend = s.hsPend := by
  induction ws generalizing s with
  | nil => rfl
  | cons w ws ih => exact (ih _).trans (by simp)
@[simp] theorem flush_replayCb (cfg) (s : St) (ws) : (s.flush cfg ws).replayCb = s.replayCb := by
  induction ws generalizing s with
  | nil => rfl
  | cons w ws ih => exact (ih _).trans (by simp)
@[simp] theorem flush_extErr (cfg) (s : St) (ws) : (s.flush cfg ws).extErr = s.extErr := by
  induction ws generalizing s with
  | nil => rfl
  | cons w ws ih => exact (ih _).trans (by simp)
@[simp] theorem flush_smErr (cfg) (s : St) (ws) : (s.flush cfg ws).smErr = s.smErr := by
  induction ws generalizing s with
  | nil => rfl
  | cons w ws ih => exact (ih _).trans (by simp)
@[simp] theorem flush_smClosed (cfg) (s : St) (ws) : (s.flush cfg ws).smClosed = s.smClosed := by
  induction ws generalizing s with
  | nil => rfl
  | cons w ws ih => exact (ih _).trans (by simp)
@[simp] theorem flush_guard (cfg) (s : St) (ws) : (s.flush cfg ws).guard = s.guard := by
  induction ws generalizing s with
  | nil => rfl
  | cons w ws ih => exact (ih _).trans (by simp)
@[simp] theorem flush_susp (cfg) (s : St) (ws) : (s.flush cfg ws).susp = s.susp := by
  induction ws generalizing s with
  | nil => rfl
  | cons w ws ih => exact (ih _).trans (by simp)
@[simp] theorem flush_inProc (cfg) (s : St) (ws) : (s.flush cfg ws).inProc = s.inProc := by
  induction ws generalizing s with
  | nil => rfl
  | cons w ws ih => exact (ih _).trans (by simp)
@[simp] theorem flush_phase (cfg) (s : St) (ws) : (s.flush cfg ws).phase = s.phase := by
  induction ws generalizing s with
  | nil => rfl
  | cons w ws ih => exact (ih _).trans (by simp)
@[simp] theorem flush_tGood (cfg) (s : St) (ws) : (s.flush cfg ws).tGood = s.tGood := by
  induction ws generalizing s with
  | nil => rfl
  | cons w ws ih => exact (ih _).trans (by simp)
@[simp] theorem flush_tErr (cfg) (s : St) (ws) : (s.flush cfg ws).tErr = s.tErr := by
  induction ws generalizing s with
  | nil => rfl
  | cons w ws ih => exact (ih _).trans (by simp)
@[simp] theorem flush_tConn (cfg) (s : St) (ws) : (s.flush cfg ws).tConn = s.tConn := by
  induction ws generalizing s with
  | nil => rfl
  | cons w ws ih => exact (ih _).trans (by simp)
@[simp] theorem flush_nextId (cfg) (s : St) (ws) : (s.flush cfg ws).nextId = s.nextId := by
  induction ws generalizing s with
  | nil => rfl
  | cons w ws ih => exact (ih _).trans (by simp)
@[simp] theorem flush_stack (cfg) (s : St) (ws) : (s.flush cfg ws).stack = s.stack := by
  induction ws generalizing s with
  | nil => rfl
  | cons w ws ih => exact (ih _).trans (by simp)

@[simp] theorem fail_connected (s : St) : (s.fail).connected = s.connected := rfl
@[simp] theorem fail_cb (s : St) : (s.fail).cb = s.cb := rfl
@[simp] theorem fail_early (s : St) : (s.fail).early = s.early := rfl
@[simp] theorem fail_hsPend (s : St) : (s.fail).hsPend = s.hsPend := rfl
@[simp] theorem fail_replayCb (s : St) : (s.fail).replayCb = s.replayCb := rfl
@[simp] theorem fail_bytes (s : St) : (s.fail).bytes = s.bytes := rfl
@[simp] theorem fail_queue (s : St) : (s.fail).queue = s.queue := rfl
@[simp] theorem fail_extErr (s : St) : (s.fail).extErr = s.extErr := rfl
@[simp] theorem fail_smErr (s : St) : (s.fail).smErr = s.smErr := rfl
@[simp] theorem fail_smClosed (s : St) : (s.fail).smClosed = s.smClosed := rfl
@[simp] theorem fail_guard (s : St) : (s.fail).guard = s.guard := rfl
@[simp] theorem fail_susp (s : St) : (s.fail).susp = s.susp := rfl
@[simp] theorem fail_inProc (s : St) : (s.fail).inProc = s.inProc := rfl
@[simp] theorem fail_phase (s : St) : (s.fail).phase = s.phase := rfl
@[simp] theorem fail_tGood (s : St) : (s.fail).tGood = s.tGood := rfl
@[simp] theorem fail_tErr (s : St) : (s.fail).tErr = s.tErr := rfl
@[simp] theorem fail_tConn (s : St) : (s.fail).tConn = s.tConn := rfl
@[simp] theorem fail_nextId (s : St) : (s.fail).nextId = s.nextId := rfl

@[simp] theorem failW_connected (s : St) (t) : (s.failW t).connected = s.connected := by unfold St.failW; split <;> rfl
@[simp] theorem failW_cb (s : St) (t) : (s.failW t).cb = s.cb := by unfold St.failW; split <;> rfl
@[simp] theorem failW_early (s : St) (t) : (s.failW t).early = s.early := by unfold St.failW; split <;> rfl
@[simp] theorem failW_hsPend (s : St) (t) : (s.failW t).hsPend = s.hsPend := by unfold St.failW; split <;> rfl
@[simp] theorem failW_replayCb (s : St) (t) : (s.failW t).replayCb = s.replayCb := by unfold St.failW; split <;> rfl
@[simp] theorem failW_bytes (s : St) (t) : (s.failW t).bytes = s.bytes := by unfold St.failW; split <;> rfl
@[simp] theorem failW_queue (s : St) (t) : (s.failW t).queue = s.queue := by unfold St.failW; split <;> rfl
@[simp] theorem failW_extErr (s : St) (t) : (s.failW t).extErr = s.extErr := by unfold St.failW; split <;> rfl
@[simp] theorem failW_smErr (s : St) (t) : (s.failW t).smErr = s.smErr := by unfold St.failW; split <;> rfl
@[simp] theorem failW_smClosed (s : St) (t) : (s.failW t).smClosed = s.smClosed := by unfold St.failW; split <;> rfl
@[simp] theorem failW_guard (s : St) (t) : (s.failW t).guard = s.guard := by unfold St.failW; split <;> rfl
@[simp] theorem failW_susp (s : St) (t) : (s.failW t).susp = s.susp := by unfold St.failW; split <;> rfl
@[simp] theorem failW_inProc (s : St) (t) : (s.failW t).inProc = s.inProc := by unfold St.failW; split <;> rfl
@[simp] theorem failW_phase (s : St) (t) : (s.failW t).phase = s.phase := by unfold St.failW; split <;> rfl
@[simp] theorem failW_tGood (s : St) (t) : (s.failW t).tGood = s.tGood := by unfold St.failW; split <;> rfl
@[simp] theorem failW_tErr (s : St) (t) : (s.failW t).tErr = s.tErr := by unfold St.failW; split <;> rfl
@[simp] theorem failW_tConn (s : St) (t) : (s.failW t).tConn = s.tConn := by unfold St.failW; split <;> rfl
@[simp] theorem failW_nextId (s : St) (t) : (s.failW t).nextId = s.nextId := by unfold St.failW; split <;> rfl

@[simp] theorem hsSuccess_connected (s : St) : (s.hsSuccess).connected = s.connected := by unfold St.hsSuccess; split <;> rfl
@[simp] theorem hsSuccess_early (s : St) : (s.hsSuccess).early = s.early := by unfold St.hsSuccess; split <;> rfl
@[simp] theorem hsSuccess_hsPend (s : St) : (s.hsSuccess).hsPend = s.hsPend := by unfold St.hsSuccess; split <;> rfl
@[simp] theorem hsSuccess_replayCb (s : St) : (s.hsSuccess).replayCb = s.replayCb := by unfold St.hsSuccess; split <;> rfl
@[simp] theorem hsSuccess_bytes (s : St) : (s.hsSuccess).bytes = s.bytes := by unfold St.hsSuccess; split <;> rfl
@[simp] theorem hsSuccess_queue (s : St) : (s.hsSuccess).queue = s.queue := by unfold St.hsSuccess; split <;> rfl
@[simp] theorem hsSuccess_extErr (s : St) : (s.hsSuccess).extErr = s.extErr := by unfold St.hsSuccess; split <;> rfl
@[simp] theorem hsSuccess_smErr (s : St) : (s.hsSuccess).smErr = s.smErr := by unfold St.hsSuccess; split <;> rfl
@[simp] theorem hsSuccess_smClosed (s : St) : (s.hsSuccess).smClosed = s.smClosed := by unfold St.hsSuccess; split <;> rfl
@[simp] theorem hsSuccess_guard (s : St) : (s.hsSuccess).guard = s.guard := by unfold St.hsSuccess; split <;> rfl
@[simp] theorem hsSuccess_susp (s : St) : (s.hsSuccess).susp = s.susp := by unfold St.hsSuccess; split <;> rfl
@[simp] theorem hsSuccess_inProc (s : St) : (s.hsSuccess).inProc = s.inProc := by unfold St.hsSuccess; split <;> rfl
@[simp] theorem hsSuccess_phase (s : St) : (s.hsSuccess).phase = s.phase := by unfold St.hsSuccess; split <;> rfl
@[simp] theorem hsSuccess_tGood (s : St) : (s.hsSuccess).tGood = s.tGood := by unfold St.hsSuccess; split <;> rfl
@[simp] theorem hsSuccess_tErr (s : St) : (s.hsSuccess).tErr = s.tErr := by unfold St.hsSuccess; split <;> rfl
@[simp] theorem hsSuccess_tConn (s : St) : (s.hsSuccess).tConn = s.tConn := by unfold St.hsSuccess; split <;> rfl
@[simp] theorem hsSuccess_nextId (s : St) : (s.hsSuccess).nextId = s.nextId := by unfold St.hsSuccess; split <;> rfl

@[simp] theorem hsError_connected (s : St) : (s.hsError).connected = s.connected := by unfold St.hsError; split <;> rfl
@[simp] theorem hsError_early (s : St) : (s.hsError).early = s.early := by unfold St.hsError; split <;> rfl
@[simp] theorem hsError_hsPend (s : St) : (s.hsError).hsPend = s.hsPend := by unfold St.hsError; split <;> rfl
@[simp] theorem hsError_replayCb (s : St) : (s.hsError).replayCb = s.replayCb := by unfold St.hsError; split <;> rfl
@[simp] theorem hsError_bytes (s : St) : (s.hsError).bytes = s.bytes := by unfold St.hsError; split <;> rfl
@[simp] theorem hsError_queue (s : St) : (s.hsError).queue = s.queue := by unfold St.hsError; split <;> rfl
@[simp] theorem hsError_extErr (s : St) : (s.hsError).extErr = s.extErr := by unfold St.hsError; split <;> rfl
@[simp] theorem hsError_smErr (s : St) : (s.hsError).smErr = s.smErr := by unfold St.hsError; split <;> rfl
@[simp] theorem hsError_smClosed (s : St) : (s.hsError).smClosed = s.smClosed := by unfold St.hsError; split <;> rfl
@[simp] theorem hsError_guard (s : St) : (s.hsError).guard = s.guard := by unfold St.hsError; split <;> rfl
@[simp] theorem hsError_susp (s : St) : (s.hsError).susp = s.susp := by unfold St.hsError; split <;> rfl
@[simp] theorem hsError_inProc (s : St) : (s.hsError).inProc = s.inProc := by unfold St.hsError; split <;> rfl
@[simp] theorem hsError_phase (s : St) : (s.hsError).phase = s.phase := by unfold St.hsError; split <;> rfl
@[simp] theorem hsError_tGood (s : St) : (s.hsError).tGood = s.tGood := by unfold St.hsError; split <;> rfl
@[simp] theorem hsError_tErr (s : St) : (s.hsError).tErr = s.tErr := by unfold St.hsError; split <;> rfl
@[simp] theorem hsError_tConn (s : St) : (s.hsError).tConn = s.tConn := by unfold St.hsError; split <;> rfl
@[simp] theorem hsError_nextId (s : St) : (s.hsError).nextId = s.nextId := by unfold St.hsError; split <;> rfl

@[simp] theorem startMachine_connected (s : St) : (s.startMachine).connected = s.connected := rfl
@[simp] theorem startMachine_cb (s : St) : (s.startMachine).cb = s.cb := rfl
@[simp] theorem startMachine_early (s : St) : (s.startMachine).early = s.early := rfl
@[simp] theorem startMachine_hsPend (s : St) : (s.startMachine).hsPend = s.hsPend := rfl
@[simp] theorem startMachine_replayCb (s : St) : (s.startMachine).replayCb = s.replayCb := rfl
@[simp] theorem startMachine_bytes (s : St) : (s.startMachine).bytes = s.bytes := rfl
@[simp] theorem startMachine_queue (s : St) : (s.startMachine).queue = s.queue := rfl
@[simp] theorem startMachine_extErr (s : St) : (s.startMachine).extErr = s.extErr := rfl
@[simp] theorem startMachine_smErr (s : St) : (s.startMachine).smErr = s.smErr := rfl
@[simp] theorem startMachine_smClosed (s : St) : (s.startMachine).smClosed = s.smClosed := rfl
@[simp] theorem startMachine_susp (s : St) : (s.startMachine).susp = s.susp := rfl
@[simp] theorem startMachine_inProc (s : St) : (s.startMachine).inProc = s.inProc := rfl
@[simp] theorem startMachine_phase (s : St) : (s.startMachine).phase = s.phase := rfl
@[simp] theorem startMachine_tGood (s : St) : (s.startMachine).tGood = s.tGood := rfl
@[simp] theorem startMachine_tErr (s : St) : (s.startMachine).tErr = s.tErr := rfl
@[simp] theorem startMachine_tConn (s : St) : (s.startMachine).tConn = s.tConn := rfl
@[simp] theorem startMachine_nextId (s : St) : (s.startMachine).nextId = s.nextId := rfl
@[simp] theorem startMachine_log (s : St) : (s.startMachine).log = s.log := rfl

@[simp] theorem performAppWrite_connected (s : St) (w) : (s.performAppWrite w).connected = s.connected := by unfold St.performAppWrite; simp
@[simp] theorem performAppWrite_cb (s : St) (w) : (s.performAppWrite w).cb = s.cb := by unfold St.performAppWrite; simp
@[simp] theorem performAppWrite_early (s : St) (w) : (s.performAppWrite w).early = s.early := by unfold St.performAppWrite; simp
@[simp] theorem performAppWrite_hsPend (s : St) (w) : (s.performAppWrite w).hsPend = s.hsPend := by unfold St.performAppWrite; simp
@[simp] theorem performAppWrite_replayCb (s : St) (w) : (s.performAppWrite w).replayCb = s.replayCb := by unfold St.performAppWrite; simp
@[simp] theorem performAppWrite_bytes (s : St) (w) : (s.performAppWrite w).bytes = s.bytes := by unfold St.performAppWrite; simp
@[simp] theorem performAppWrite_extErr (s : St) (w) : (s.performAppWrite w).extErr = s.extErr := by unfold St.performAppWrite; simp
@[simp] theorem performAppWrite_smErr (s : St) (w) : (s.performAppWrite w).smErr = s.smErr := by unfold St.performAppWrite; simp
@[simp] theorem performAppWrite_smClosed (s : St) (w) : (s.performAppWrite w).smClosed = s.smClosed := by unfold St.performAppWrite; simp
@[simp] theorem performAppWrite_guard (s : St) (w) : (s.performAppWrite w).guard = s.guard := by unfold St.performAppWrite; simp
@[simp] theorem performAppWrite_susp (s : St) (w) : (s.performAppWrite w).susp = s.susp := by unfold St.performAppWrite; simp
@[simp] theorem performAppWrite_phase (s : St) (w) : (s.performAppWrite w).phase = s.phase := by unfold St.performAppWrite; simp
@[simp] theorem performAppWrite_tGood (s : St) (w) : (s.performAppWrite w).tGood = s.tGood := by unfold St.performAppWrite; simp
@[simp] theorem performAppWrite_tErr (s : St) (w) : (s.performAppWrite w).tErr = s.tErr := by unfold St.performAppWrite; simp
@[simp] theorem performAppWrite_tConn (s : St) (w) : (s.performAppWrite w).tConn = s.tConn := by unfold St.performAppWrite; simp
@[simp] theorem performAppWrite_nextId (s : St) (w) : (s.performAppWrite w).nextId = s.nextId := by unfold St.performAppWrite; simp

@[simp] theorem writeEarly_connected (cfg) (s : St) (e w) : (s.writeEarly cfg e w).connected = s.connected := by unfold St.writeEarly; split <;> simp
@[simp] theorem writeEarly_cb (cfg) (s : St) (e w) : (s.writeEarly cfg e w).cb = s.cb := by unfold St.writeEarly; split <;> simp
@[simp] theorem writeEarly_hsPend (cfg) (s : St) (e w) : (s.writeEarly cfg e w).hsPend = s.hsPend := by unfold St.writeEarly; split <;> simp
@[simp] theorem writeEarly_replayCb (cfg) (s : St) (e w) : (s.writeEarly cfg e w).replayCb = s.replayCb := by unfold St.writeEarly; split <;> simp
@[simp] theorem writeEarly_bytes (cfg) (s : St) (e w) : (s.writeEarly cfg e w).bytes = s.bytes := by unfold St.writeEarly; split <;> simp
@[simp] theorem writeEarly_extErr (cfg) (s : St) (e w) : (s.writeEarly cfg e w).extErr = s.extErr := by unfold St.writeEarly; split <;> simp
@[simp] theorem writeEarly_smErr (cfg) (s : St) (e w) : (s.writeEarly cfg e w).smErr = s.smErr := by unfold St.writeEarly; split <;> simp
@[simp] theorem writeEarly_smClosed (cfg) (s : St) (e w) : (s.writeEarly cfg e w).smClosed = s.smClosed := by unfold St.writeEarly; split <;> simp
@[simp] theorem writeEarly_guard (cfg) (s : St) (e w) : (s.writeEarly cfg e w).guard = s.guard := by unfold St.writeEarly; split <;> simp
@[simp] theorem writeEarly_susp (cfg) (s : St) (e w) : (s.writeEarly cfg e w).susp = s.susp := by unfold St.writeEarly; split <;> simp
@[simp] theorem writeEarly_phase (cfg) (s : St) (e w) : (s.writeEarly cfg e w).phase = s.phase := by unfold St.writeEarly; split <;> simp
@[simp] theorem writeEarly_tGood (cfg) (s : St) (e w) : (s.writeEarly cfg e w).tGood = s.tGood := by unfold St.writeEarly; split <;> simp
@[simp] theorem writeEarly_tErr (cfg) (s : St) (e w) : (s.writeEarly cfg e w).tErr = s.tErr := by unfold St.writeEarly; split <;> simp
@[simp] theorem writeEarly_tConn (cfg) (s : St) (e w) : (s.writeEarly cfg e w).tConn = s.tConn := by unfold St.writeEarly; split <;> simp
@[simp] theorem writeEarly_nextId (cfg) (s : St) (e w) : (s.writeEarly cfg e w).nextId = s.nextId := by unfold St.writeEarly; split <;> simp

@[simp] theorem writeGood_connected (cfg) (s : St) (w) : (s.writeGood cfg w).connected = s.connected := by
  unfold St.writeGood
  split
  · simp
  · split
    · simp
    · split <;> simp
@[simp] theorem writeGood_cb (cfg) (s : St) (w) : (s.writeGood cfg w).cb = s.cb := by
  unfold St.writeGood
  split
  · simp
  · split
    · simp
    · split <;> simp
@[simp] theorem writeGood_replayCb (cfg) (s : St) (w) : (s.writeGood cfg w).replayCb = s.replayCb := by
  unfold St.writeGood
  split
  · simp
  · split
    · simp
    · split <;> simp
@[simp] theorem writeGood_bytes (cfg) (s : St) (w) : (s.writeGood cfg w).bytes = s.bytes := by
  unfold St.writeGood
  split
  · simp
  · split
    · simp
    · split <;> simp
@[simp] theorem writeGood_extErr (cfg) (s : St) (w) : (s.writeGood cfg w).extErr = s.extErr := by
  unfold St.writeGood
  split
  · simp
  · split
    · simp
    · split <;> simp
@[simp] theorem writeGood_smErr (cfg) (s : St) (w) : (s.writeGood cfg w).smErr = s.smErr := by
  unfold St.writeGood
  split
  · simp
  · split
    · simp
    · split <;> simp
@[simp] theorem writeGood_smClosed (cfg) (s : St) (w) : (s.writeGood cfg w).smClosed = s.smClosed := by
  unfold St.writeGood
  split
  · simp
  · split
    · simp
    · split <;> simp
@[simp] theorem writeGood_guard (cfg) (s : St) (w) : (s.writeGood cfg w).guard = s.guard := by
  unfold St.writeGood
  split
  · simp
  · split
    · simp
    · split <;> simp
@[simp] theorem writeGood_susp (cfg) (s : St) (w) : (s.writeGood cfg w).susp = s.susp := by
  unfold St.writeGood
  split
  · simp
  · split
    · simp
    · split <;> simp
@[simp] theorem writeGood_phase (cfg) (s : St) (w) : (s.writeGood cfg w).phase = s.phase := by
  unfold St.writeGood
  split
  · simp
  · split
    · simp
    · split <;> simp
@[simp] theorem writeGood_tGood (cfg) (s : St) (w) : (s.writeGood cfg w).tGood = s.tGood := by
  unfold St.writeGood
  split
  · simp
  · split
    · simp
    · split <;> simp
@[simp] theorem writeGood_tErr (cfg) (s : St) (w) : (s.writeGood cfg w).tErr = s.tErr := by
  unfold St.writeGood
  split
  · simp
  · split
    · simp
    · split <;> simp
@[simp] theorem writeGood_tConn (cfg) (s : St) (w) : (s.writeGood cfg w).tConn = s.tConn := by
  unfold St.writeGood
  split
  · simp
  · split
    · simp
    · split <;> simp
@[simp] theorem writeGood_nextId (cfg) (s : St) (w) : (s.writeGood cfg w).nextId = s.nextId := by
  unfold St.writeGood
  split
  · simp
  · split
    · simp
    · split <;> simp

@[simp] theorem write_connected (cfg) (s : St) (d c) : (s.write cfg d c).connected = s.connected := by
  unfold St.write
  simp only []
  split
  · simp
  · split <;> simp
@[simp] theorem write_cb (cfg) (s : St) (d c) : (s.write cfg d c).cb = s.cb := by
  unfold St.write
  simp only []
  split
  · simp
  · split <;> simp
@[simp] theorem write_replayCb (cfg) (s : St) (d c) : (s.write cfg d c).replayCb = s.replayCb := by
  unfold St.write
  simp only []
  split
  · simp
  · split <;> simp
@[simp] theorem write_bytes (cfg) (s : St) (d c) : (s.write cfg d c).bytes = s.bytes := by
  unfold St.write
  simp only []
  split
  · simp
  · split <;> simp
@[simp] theorem write_extErr (cfg) (s : St) (d c) : (s.write cfg d c).extErr = s.extErr := by
  unfold St.write
  simp only []
  split
  · simp
  · split <;> simp
@[simp] theorem write_smErr (cfg) (s : St) (d c) : (s.write cfg d c).smErr = s.smErr := by
  unfold St.write
  simp only []
  split
  · simp
  · split <;> simp
@[simp] theorem write_smClosed (cfg) (s : St) (d c) : (s.write cfg d c).smClosed = s.smClosed := by
  unfold St.write
  simp only []
  split
  · simp
  · split <;> simp
@[simp] theorem write_guard (cfg) (s : St) (d c) : (s.write cfg d c).guard = s.guard := by
  unfold St.write
  simp only []
  split
  · simp
  · split <;> simp
@[simp] theorem write_susp (cfg) (s : St) (d c) : (s.write cfg d c).susp = s.susp := by
  unfold St.write
  simp only []
  split
  · simp
  · split <;> simp
@[simp] theorem write_phase (cfg) (s : St) (d c) : (s.write cfg d c).phase = s.phase := by
  unfold St.write
  simp only []
  split
  · simp
  · split <;> simp
@[simp] theorem write_tGood (cfg) (s : St) (d c) : (s.write cfg d c).tGood = s.tGood := by
  unfold St.write
  simp only []
  split
  · simp
  · split <;> simp
@[simp] theorem write_tErr (cfg) (s : St) (d c) : (s.write cfg d c).tErr = s.tErr := by
  unfold St.write
  simp only []
  split
  · simp
  · split <;> simp
@[simp] theorem write_tConn (cfg) (s : St) (d c) : (s.write cfg d c).tConn = s.tConn := by
  unfold St.write
  simp only []
  split
  · simp
  · split <;> simp

@[simp] theorem connect_early (cfg) (s : St) (c v) : (s.connect cfg c v).early = s.early := by
  unfold St.connect
  simp only []
  repeat' split
  all_goals simp
@[simp] theorem connect_hsPend (cfg) (s : St) (c v) : (s.connect cfg c v).hsPend = s.hsPend := by
  unfold St.connect
  simp only []
  repeat' split
  all_goals simp
@[simp] theorem connect_replayCb (cfg) (s : St) (c v) : (s.connect cfg c v).replayCb = s.replayCb := by
  unfold St.connect
  simp only []
  repeat' split
  all_goals simp
@[simp] theorem connect_bytes (cfg) (s : St) (c v) : (s.connect cfg c v).bytes = s.bytes := by
  unfold St.connect
  simp only []
  repeat' split
  all_goals simp
@[simp] theorem connect_queue (cfg) (s : St) (c v) : (s.connect cfg c v).queue = s.queue := by
  unfold St.connect
  simp only []
  repeat' split
  all_goals simp
@[simp] theorem connect_extErr (cfg) (s : St) (c v) : (s.connect cfg c v).extErr = s.extErr := by
  unfold St.connect
  simp only []
  repeat' split
  all_goals simp
@[simp] theorem connect_smErr (cfg) (s : St) (c v) : (s.connect cfg c v).smErr = s.smErr := by
  unfold St.connect
  simp only []
  repeat' split
  all_goals simp
@[simp] theorem connect_smClosed (cfg) (s : St) (c v) : (s.connect cfg c v).smClosed = s.smClosed := by
  unfold St.connect
  simp only []
  repeat' split
  all_goals simp
@[simp] theorem connect_susp (cfg) (s : St) (c v) : (s.connect cfg c v).susp = s.susp := by
  unfold St.connect
  simp only []
  repeat' split
  all_goals simp
@[simp] theorem connect_inProc (cfg) (s : St) (c v) : (s.connect cfg c v).inProc = s.inProc := by
  unfold St.connect
  simp only []
  repeat' split
  all_goals simp
@[simp] theorem connect_phase (cfg) (s : St) (c v) : (s.connect cfg c v).phase = s.phase := by
  unfold St.connect
  simp only []
  repeat' split
  all_goals simp
@[simp] theorem connect_tGood (cfg) (s : St) (c v) : (s.connect cfg c v).tGood = s.tGood := by
  unfold St.connect
  simp only []
  repeat' split
  all_goals simp
@[simp] theorem connect_tErr (cfg) (s : St) (c v) : (s.connect cfg c v).tErr = s.tErr := by
  unfold St.connect
  simp only []
  repeat' split
  all_goals simp
@[simp] theorem connect_tConn (cfg) (s : St) (c v) : (s.connect cfg c v).tConn = s.tConn := by
  unfold St.connect
  simp only []
  repeat' split
  all_goals simp
@[simp] theorem connect_nextId (cfg) (s : St) (c v) : (s.connect cfg c v).nextId = s.nextId := by
  unfold St.connect
  simp only []
  repeat' split
  all_goals simp

@[simp] theorem close_connected (s : St) (k) : (s.close k).connected = s.connected := by cases k <;> simp only [St.close] <;> split <;> simp
@[simp] theorem close_cb (s : St) (k) : (s.close k).cb = s.cb := by cases k <;> simp only [St.close] <;> split <;> simp
@[simp] theorem close_early (s : St) (k) : (s.close k).early = s.early := by cases k <;> simp only [St.close] <;> split <;> simp
@[simp] theorem close_hsPend (s : St) (k) : (s.close k).hsPend = s.hsPend := by cases k <;> simp only [St.close] <;> split <;> simp
@[simp] theorem close_replayCb (s : St) (k) : (s.close k).replayCb = s.replayCb := by cases k <;> simp only [St.close] <;> split <;> simp
@[simp] theorem close_bytes (s : St) (k) : (s.close k).bytes = s.bytes := by cases k <;> simp only [St.close] <;> split <;> simp
@[simp] theorem close_extErr (s : St) (k) : (s.close k).extErr = s.extErr := by cases k <;> simp only [St.close] <;> split <;> simp
@[simp] theorem close_smErr (s : St) (k) : (s.close k).smErr = s.smErr := by cases k <;> simp only [St.close] <;> split <;> simp
@[simp] theorem close_smClosed (s : St) (k) : (s.close k).smClosed = s.smClosed := by cases k <;> simp only [St.close] <;> split <;> simp
@[simp] theorem close_guard (s : St) (k) : (s.close k).guard = s.guard := by cases k <;> simp only [St.close] <;> split <;> simp
@[simp] theorem close_susp (s : St) (k) : (s.close k).susp = s.susp := by cases k <;> simp only [St.close] <;> split <;> simp
@[simp] theorem close_phase (s : St) (k) : (s.close k).phase = s.phase := by cases k <;> simp only [St.close] <;> split <;> simp
@[simp] theorem close_tGood (s : St) (k) : (s.close k).tGood = s.tGood := by cases k <;> simp only [St.close] <;> split <;> simp
@[simp] theorem close_tErr (s : St) (k) : (s.close k).tErr = s.tErr := by cases k <;> simp only [St.close] <;> split <;> simp
@[simp] theorem close_tConn (s : St) (k) : (s.close k).tConn = s.tConn := by cases k <;> simp only [St.close] <;> split <;> simp
@[simp] theorem close_nextId (s : St) (k) : (s.close k).nextId = s.nextId := by cases k <;> simp only [St.close] <;> split <;> simp

@[simp] theorem successEarly_connected (cfg) (s : St) (a now old) : (s.successEarly cfg a now old).connected = s.connected := by
  unfold St.successEarly
  repeat' split
  all_goals simp
  all_goals (repeat' split)
  all_goals simp
@[simp] theorem successEarly_cb (cfg) (s : St) (a now old) : (s.successEarly cfg a now old).cb = s.cb := by
  unfold St.successEarly
  repeat' split
  all_goals simp
  all_goals (repeat' split)
  all_goals simp
@[simp] theorem successEarly_hsPend (cfg) (s : St) (a now old) : (s.successEarly cfg a now old).hsPend = s.hsPend := by
  unfold St.successEarly
  repeat' split
  all_goals simp
  all_goals (repeat' split)
  all_goals simp
@[simp] theorem successEarly_replayCb (cfg) (s : St) (a now old) : (s.successEarly cfg a now old).replayCb = s.replayCb := by
  unfold St.successEarly
  repeat' split
  all_goals simp
  all_goals (repeat' split)
  all_goals simp
@[simp] theorem successEarly_extErr (cfg) (s : St) (a now old) : (s.successEarly cfg a now old).extErr = s.extErr := by
  unfold St.successEarly
  repeat' split
  all_goals simp
  all_goals (repeat' split)
  all_goals simp
@[simp] theorem successEarly_smErr (cfg) (s : St) (a now old) : (s.successEarly cfg a now old).smErr = s.smErr := by
  unfold St.successEarly
  repeat' split
  all_goals simp
  all_goals (repeat' split)
  all_goals simp
@[simp] theorem successEarly_smClosed (cfg) (s : St) (a now old) : (s.successEarly cfg a now old).smClosed = s.smClosed := by
  unfold St.successEarly
  repeat' split
  all_goals simp
  all_goals (repeat' split)
  all_goals simp
@[simp] theorem successEarly_guard (cfg) (s : St) (a now old) : (s.successEarly cfg a now old).guard = s.guard := by
  unfold St.successEarly
  repeat' split
  all_goals simp
  all_goals (repeat' split)
  all_goals simp
@[simp] theorem successEarly_susp (cfg) (s : St) (a now old) : (s.successEarly cfg a now old).susp = s.susp := by
  unfold St.successEarly
  repeat' split
  all_goals simp
  all_goals (repeat' split)
  all_goals simp
@[simp] theorem successEarly_inProc (cfg) (s : St) (a now old) : (s.successEarly cfg a now old).inProc = s.inProc := by
  unfold St.successEarly
  repeat' split
  all_goals simp
  all_goals (repeat' split)
  all_goals simp
@[simp] theorem successEarly_phase (cfg) (s : St) (a now old) : (s.successEarly cfg a now old).phase = s.phase := by
  unfold St.successEarly
  repeat' split
  all_goals simp
  all_goals (repeat' split)
  all_goals simp
@[simp] theorem successEarly_tGood (cfg) (s : St) (a now old) : (s.successEarly cfg a now old).tGood = s.tGood := by
  unfold St.successEarly
  repeat' split
  all_goals simp
  all_goals (repeat' split)
  all_goals simp
@[simp] theorem successEarly_tErr (cfg) (s : St) (a now old) : (s.successEarly cfg a now old).tErr = s.tErr := by
  unfold St.successEarly
  repeat' split
  all_goals simp
  all_goals (repeat' split)
  all_goals simp
@[simp] theorem successEarly_tConn (cfg) (s : St) (a now old) : (s.successEarly cfg a now old).tConn = s.tConn := by
  unfold St.successEarly
  repeat' split
  all_goals simp
  all_goals (repeat' split)
  all_goals simp
@[simp] theorem successEarly_nextId (cfg) (s : St) (a now old) : (s.successEarly cfg a now old).nextId = s.nextId := by
  unfold St.successEarly
  repeat' split
  all_goals simp
  all_goals (repeat' split)
  all_goals simp

@[simp] theorem successClient_connected (cfg) (s : St) (a now old) : (s.successClient cfg a now old).connected = s.connected := by unfold St.successClient; simp
@[simp] theorem successClient_cb (cfg) (s : St) (a now old) : (s.successClient cfg a now old).cb = s.cb := by unfold St.successClient; simp
@[simp] theorem successClient_replayCb (cfg) (s : St) (a now old) : (s.successClient cfg a now old).replayCb = s.replayCb := by unfold St.successClient; simp
@[simp] theorem successClient_extErr (cfg) (s : St) (a now old) : (s.successClient cfg a now old).extErr = s.extErr := by unfold St.successClient; simp
@[simp] theorem successClient_smErr (cfg) (s : St) (a now old) : (s.successClient cfg a now old).smErr = s.smErr := by unfold St.successClient; simp
@[simp] theorem successClient_smClosed (cfg) (s : St) (a now old) : (s.successClient cfg a now old).smClosed = s.smClosed := by unfold St.successClient; simp
@[simp] theorem successClient_guard (cfg) (s : St) (a now old) : (s.successClient cfg a now old).guard = s.guard := by unfold St.successClient; simp
@[simp] theorem successClient_susp (cfg) (s : St) (a now old) : (s.successClient cfg a now old).susp = s.susp := by unfold St.successClient; simp
@[simp] theorem successClient_inProc (cfg) (s : St) (a now old) : (s.successClient cfg a now old).inProc = s.inProc := by unfold St.successClient; simp
@[simp] theorem successClient_phase (cfg) (s : St) (a now old) : (s.successClient cfg a now old).phase = s.phase := by unfold St.successClient; simp
@[simp] theorem successClient_tGood (cfg) (s : St) (a now old) : (s.successClient cfg a now old).tGood = s.tGood := by unfold St.successClient; simp
@[simp] theorem successClient_tErr (cfg) (s : St) (a now old) : (s.successClient cfg a now old).tErr = s.tErr := by unfold St.successClient; simp
@[simp] theorem successClient_tConn (cfg) (s : St) (a now old) : (s.successClient cfg a now old).tConn = s.tConn := by unfold St.successClient; simp
@[simp] theorem successClient_nextId (cfg) (s : St) (a now old) : (s.successClient cfg a now old).nextId = s.nextId := by unfold St.successClient; simp

end Fizz.Sock
