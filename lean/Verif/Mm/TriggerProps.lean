import Verif.Mm.Trigger
import Verif.Mm.Props
/-!
C115: software MMIs.
-/
namespace Verif.Mm

/-- The configuration names the ports of the chipset, and they differ. -/
def PortConfig.Fits (cfg : PortConfig) (c : Chipset) : Prop :=
  cfg.cmd = .smi c.apm ∧ cfg.data = .smi c.apmData ∧ c.apm ≠ c.apmData

theorem trigger_fits {c : Chipset} {cfg : PortConfig} (hf : cfg.Fits c) (h : MmiHandler) (m : Machine)
    (cmd data : UInt8) :
    trigger true c h cfg m cmd data = (.ok (), ⟨fun p => if p = c.apmData then data else if p = c.apm then cmd else
      m.ports p, h cmd (m.ports c.apmData) m.mem, m.mmis ++ [(cmd, m.ports c.apmData)]⟩) := by
  obtain ⟨h1, h2, h3⟩ := hf
  have h3' : c.apmData ≠ c.apm := Ne.symm h3
  unfold trigger writePort
  simp only [h1, h2, if_true]
  unfold Machine.out
  simp only [if_true, h3', if_false]

/-- C115, the command: a trigger with the ports of the chipset raises exactly one MMI, whose handler finds the command
that was given. Missing: the data, see `data_is_stale`. -/
theorem one_mmi_partial (c : Chipset) (cfg : PortConfig) (hf : cfg.Fits c) (h : MmiHandler) (m : Machine)
    (cmd data : UInt8) :
    ∃ m' d, trigger true c h cfg m cmd data = (.ok (), m') ∧ m'.mmis = m.mmis ++ [(cmd, d)] ∧ m'.mem = h cmd d m.mem ∧
      m'.ports c.apm = cmd ∧ m'.ports c.apmData = data ∧ ∀ p, p ≠ c.apm → p ≠ c.apmData → m'.ports p = m.ports p := by
  rw [trigger_fits hf]
  refine ⟨_, m.ports c.apmData, rfl, rfl, rfl, ?_, ?_, ?_⟩
  · simp [hf.2.2]
  · simp
  · intro p h1 h2
    simp [h1, h2]

/-- Finding: the handler never finds the data that was given, but what the port held before. It gets the data exactly if
the port already held it. -/
theorem data_is_stale (c : Chipset) (cfg : PortConfig) (hf : cfg.Fits c) (h : MmiHandler) (m : Machine)
    (cmd data : UInt8) :
    (trigger true c h cfg m cmd data).2.mmis = m.mmis ++ [(cmd, m.ports c.apmData)] ∧
    ((trigger true c h cfg m cmd data).2.mmis = m.mmis ++ [(cmd, data)] ↔ m.ports c.apmData = data) := by
  rw [trigger_fits hf]
  refine ⟨rfl, ?_⟩
  simp

/-- Runs a list of triggers. -/
def triggers (c : Chipset) (h : MmiHandler) (cfg : PortConfig) (m : Machine) : List (UInt8 × UInt8) → Machine
  | [] => m
  | x :: xs => triggers c h cfg (trigger true c h cfg m x.1 x.2).2 xs

/-- Finding, over every sequence of triggers: the commands arrive in order and the data one trigger late. -/
theorem data_one_late (c : Chipset) (cfg : PortConfig) (hf : cfg.Fits c) (h : MmiHandler) (xs : List (UInt8 × UInt8))
    (m : Machine) :
    (triggers c h cfg m xs).mmis =
      m.mmis ++ (xs.map (·.1)).zip (m.ports c.apmData :: xs.map (·.2)) := by
  induction xs generalizing m with
  | nil => simp [triggers]
  | cons x xs ih =>
    show (triggers c h cfg (trigger true c h cfg m x.1 x.2).2 xs).mmis = _
    rw [ih, trigger_fits hf]
    simp

/-- C115. Over every sequence of triggers, the handler is entered once for each, with its command. -/
theorem commands_in_order (c : Chipset) (cfg : PortConfig) (hf : cfg.Fits c) (h : MmiHandler)
    (xs : List (UInt8 × UInt8)) (m : Machine) :
    (triggers c h cfg m xs).mmis.map (·.1) = m.mmis.map (·.1) ++ xs.map (·.1) := by
  rw [data_one_late c cfg hf]
  rw [List.map_append]
  congr 1
  have : ∀ (as bs : List UInt8), as.length ≤ bs.length → (as.zip bs).map (·.1) = as := by
    intro as
    induction as with
    | nil => intro bs _; simp
    | cons a as ih =>
      intro bs hb
      cases bs with
      | nil => simp at hb
      | cons b bs => simp [ih bs (by simpa using hb)]
  exact this _ _ (by simp)

/-- C115. A configuration whose command port is not the one of the chipset raises no MMI, unless the data port is. -/
theorem wrong_port_silent (c : Chipset) (h : MmiHandler) (m : Machine) (p q : Nat) (cmd data : UInt8) (hp : p ≠ c.apm)
    (hq : q ≠ c.apm) :
    (trigger true c h ⟨.smi p, .smi q⟩ m cmd data).1 = .ok () ∧
    (trigger true c h ⟨.smi p, .smi q⟩ m cmd data).2.mmis = m.mmis ∧
    (trigger true c h ⟨.smi p, .smi q⟩ m cmd data).2.mem = m.mem := by
  unfold trigger writePort Machine.out
  simp [hp, hq]

/-- Finding: with a secure monitor call for the data the command is sent and handled, then the firmware panics; with one
for the command it panics at once. -/
theorem smc_panics (c : Chipset) (h : MmiHandler) (m : Machine) (cmd data : UInt8) (id : Nat) (p : MmiPort) :
    trigger true c h ⟨.smc id, p⟩ m cmd data = (.panic, m) ∧
    (trigger true c h ⟨.smi c.apm, .smc id⟩ m cmd data).1 = .panic ∧
    ∃ d, (trigger true c h ⟨.smi c.apm, .smc id⟩ m cmd data).2.mmis = m.mmis ++ [(cmd, d)] := by
  refine ⟨rfl, rfl, ?_⟩
  unfold trigger writePort Machine.out
  simp

/-- Finding: where the port writes are compiled out, a trigger succeeds and nothing was triggered. -/
theorem skipped_succeeds (c : Chipset) (h : MmiHandler) (m : Machine) (cmd data : UInt8) (p q : Nat) :
    trigger false c h ⟨.smi p, .smi q⟩ m cmd data = (.ok (), m) := rfl

/-- Finding: there a message that is sent comes back as its own response, whatever the handler would do. -/
theorem request_is_response (c : Chipset) (h : MmiHandler) (m : Machine) (p q : Nat) (b : Buf) (data : List UInt8)
    (g : Guid) (hfit : HEADER + data.length ≤ b.mem.length) (hsz : b.mem.length < 2 ^ 64) (hold : b.msgLen < 2 ^ 64) :
    (communicateOn (triggerHandler false c h ⟨.smi p, .smi q⟩ m) b data g).1 = .ok data := by
  have ht : ∀ mem, triggerHandler false c h ⟨.smi p, .smi q⟩ m mem = some mem := fun _ => rfl
  have hs := (communicate_spec (triggerHandler false c h ⟨.smi p, .smi q⟩ m) b data g hfit hsz hold
    (by intro x y hxy; rw [ht] at hxy; cases hxy; rfl)).2.1 _ (ht _)
  have hl : (g.bytes ++ leBytes 8 data.length).length = HEADER := by simp [g.len, HEADER]
  have hs := hs (by
    rw [List.append_assoc (g.bytes ++ leBytes 8 data.length), List.take_left' hl])
  rw [hs, List.append_assoc (g.bytes ++ leBytes 8 data.length), List.drop_left' hl, List.take_left' rfl]

/-- C115. On the target, a message that is sent reaches the handler of the MMI, with the command 0xFF, and the response is
what the handler left in the buffer if it kept the header. -/
theorem message_handled (c : Chipset) (cfg : PortConfig) (hf : cfg.Fits c) (h : MmiHandler) (m : Machine) (b : Buf)
    (data : List UInt8) (g : Guid) (hfit : HEADER + data.length ≤ b.mem.length) (hsz : b.mem.length < 2 ^ 64)
    (hold : b.msgLen < 2 ^ 64) (hh : ∀ x y mem, (h x y mem).length = mem.length) :
    let req := g.bytes ++ leBytes 8 data.length ++ data ++ b.mem.drop (HEADER + data.length)
    ∃ d, ((h 0xFF d req).take HEADER = g.bytes ++ leBytes 8 data.length →
        (communicateOn (triggerHandler true c h cfg m) b data g).1 =
          .ok (((h 0xFF d req).drop HEADER).take data.length)) ∧
      ((h 0xFF d req).take HEADER ≠ g.bytes ++ leBytes 8 data.length →
        (communicateOn (triggerHandler true c h cfg m) b data g).1 = .err .invalidResponse) := by
  intro req
  refine ⟨m.ports c.apmData, ?_⟩
  have ht : ∀ mem, triggerHandler true c h cfg m mem = some (h 0xFF (m.ports c.apmData) mem) := fun mem => by
    unfold triggerHandler
    rw [trigger_fits hf]
  have hs := communicate_spec (triggerHandler true c h cfg m) b data g hfit hsz hold
    (by intro x y hxy; rw [ht] at hxy; cases hxy; exact hh _ _ _)
  exact ⟨hs.2.1 _ (ht _), hs.2.2 _ (ht _)⟩

/-- C115. The service is there exactly if the platform has no initialisation of its own or it succeeded, with the
configuration that was given; an error is passed on. -/
theorem service_registered {ε : Type} (cfg : PortConfig) (init : Option (Except ε Unit)) :
    (∀ cfg', entryPoint cfg init = .ok cfg' ↔ cfg' = cfg ∧ ∀ e, init ≠ some (.error e)) ∧
    (∀ e, entryPoint cfg init = .error e ↔ init = some (.error e)) := by
  constructor
  · intro cfg'
    cases init with
    | none => simp [entryPoint, eq_comm]
    | some r => cases r <;> simp [entryPoint, eq_comm]
  · intro e
    cases init with
    | none => simp [entryPoint]
    | some r => cases r <;> simp [entryPoint, eq_comm]

/-! ### Cases that meet the hypotheses -/

/-- A chipset as on PCs: the command at 0xB2, the data at 0xB3. -/
def pc : Chipset := ⟨0xB2, 0xB3⟩
def pcConfig : PortConfig := ⟨.smi 0xB2, .smi 0xB3⟩
theorem pc_fits : pcConfig.Fits pc := ⟨rfl, rfl, by decide⟩

/-- Two triggers: the first handler finds what the port held before, the second one the data of the first. -/
example : (triggers pc (fun _ _ m => m) pcConfig ⟨fun _ => 0x55, [], []⟩ [(1, 10), (2, 20)]).mmis =
    [(1, 0x55), (2, 10)] := by decide

/-- The default configuration does not name these ports and raises nothing. -/
example : (trigger true pc (fun _ _ m => m) PortConfig.default ⟨fun _ => 0, [], []⟩ 0xFF 0).2.mmis = [] := by decide

end Verif.Mm
