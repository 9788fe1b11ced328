import Verif.Protocol.Locate
/-!
Properties C12-C16: the protocol database, for every history of calls (`Reachable`).

The specification vocabulary is in terms of what the query functions answer.
-/
namespace Verif.Protocol
open Verif

/-! ### Specification vocabulary -/

/-- The interface of `g` on `h`, if there is one. -/
def lookup (db : Db) (h g : Nat) : Option Nat :=
  match db.getInterface h g with
  | .ok i => some i
  | _ => none

/-- The recorded users of `g` on `h`. -/
def users (db : Db) (h g : Nat) : List Usage :=
  match db.usages h g with
  | .ok l => l
  | _ => []

/-- All handles in the order `locate_handles(None)` reports them. -/
def allHandles (db : Db) : List Nat :=
  match db.locateHandles none with
  | .ok l => l
  | _ => []

/-- How often `(agent, controller, attributes)` has `g` on `h` open. -/
def openCount (db : Db) (h g : Nat) (key : Option Nat × Option Nat × Nat) : Nat :=
  ((users db h g).map fun u => if (u.agent, u.controller, u.attrs) = key then u.count else 0).sum

/-- Attributes that ask for exclusion. -/
def wantsExclusion (attrs : Nat) : Bool := attrs == 0x10 || attrs == 0x20 || attrs == 0x30

/-- The argument rules of UEFI `OpenProtocol`. -/
def goodArgs (handle : Nat) (agent controller : Option Nat) (attrs : Nat) : Bool :=
  match attrs with
  | 0x01 | 0x02 | 0x04 => true
  | 0x08 => agent.isSome && controller.isSome && controller != some handle
  | 0x10 | 0x30 => agent.isSome && controller.isSome
  | 0x20 => agent.isSome
  | _ => false

/-! ### Bridges -/

theorem lookup_eq (db : Db) (h g : Nat) : lookup db h g = (db.getInst h g).map (·.interface) := by
  unfold lookup Db.getInterface Db.getInst
  cases db.handles.get h with
  | none => rfl
  | some hd =>
    simp only
    cases hd.protocols.get g with
    | none => rfl
    | some i => rfl

theorem users_eq (db : Db) (h g : Nat) : users db h g = ((db.getInst h g).map (·.usage)).getD [] := by
  unfold users Db.usages
  cases hv : db.valid h with
  | false => simp [getInst_none (valid_false.1 hv)]
  | true =>
    simp only [Bool.not_true, Bool.false_eq_true, if_false]
    cases db.getInst h g with
    | none => rfl
    | some i => rfl

theorem allHandles_eq (db : Db) : allHandles db = (aged db).map (·.1) := by
  unfold allHandles
  rw [locate_all]
  by_cases h : aged db = []
  · rw [if_pos h, h]; rfl
  · rw [if_neg h]

theorem lookup_congr {db db' : Db} {h g : Nat} (e : db'.getInst h g = db.getInst h g) : lookup db' h g = lookup db h g := by
  rw [lookup_eq, lookup_eq, e]

theorem users_congr {db db' : Db} {h g : Nat} (e : db'.getInst h g = db.getInst h g) : users db' h g = users db h g := by
  rw [users_eq, users_eq, e]

/-! ### C12: handles and interfaces -/

/-- A handle is valid exactly while some protocol is installed on it. -/
theorem valid_iff_protocol {db : Db} (hr : Reachable db) (h : Nat) : db.valid h = true ↔ ∃ g i, lookup db h g = some i := by
  have hv := inv_reachable hr
  rw [valid_iff]
  constructor
  · rintro ⟨hd, hh⟩
    have hne := hv.nonempty h hd hh
    cases hp : hd.protocols with
    | nil => exact absurd hp hne
    | cons x l =>
      refine ⟨x.1, x.2.interface, ?_⟩
      rw [lookup_eq, getInst_eq hh, hp, BMap.get_cons, if_pos rfl]; rfl
  · rintro ⟨g, i, hl⟩
    rw [lookup_eq] at hl
    cases hi : db.getInst h g with
    | none => rw [hi] at hl; cases hl
    | some j => obtain ⟨hd, hh, _⟩ := getInst_some hi; exact ⟨hd, hh⟩

/-- The null handle is never valid. -/
theorem zero_invalid {db : Db} (hr : Reachable db) : db.valid 0 = false := (inv_reachable hr).nonzero

/-- The protocols reported for a handle are exactly the installed ones, each once. -/
theorem protocols_on_handle {db : Db} (hr : Reachable db) (h : Nat) :
    (db.protocolsOn h = .err .invalidParameter ∧ db.valid h = false) ∨
    ∃ l, db.protocolsOn h = .ok l ∧ db.valid h = true ∧ l.Nodup ∧ ∀ g, g ∈ l ↔ (lookup db h g).isSome = true := by
  have hv := inv_reachable hr
  unfold Db.protocolsOn
  cases hh : db.handles.get h with
  | none => left; exact ⟨rfl, valid_false.2 hh⟩
  | some hd =>
    right
    refine ⟨_, rfl, valid_iff.2 ⟨hd, hh⟩, BMap.sorted_keys_nodup (hv.psorted h hd hh), ?_⟩
    intro g
    rw [BMap.mem_keys, has_carries hh, lookup_eq]
    unfold carries
    cases db.getInst h g <;> rfl

/-- Installing on an existing handle: fails with `INVALID_PARAMETER` exactly when the handle is not valid or has the protocol
already. -/
theorem install_existing {db : Db} (hash : Nat → Nat → Nat) (lim h g i : Nat) :
    (if db.valid h = true ∧ lookup db h g = none then ∃ ns, (db.install hash lim (some h) g i).1 = .ok (h, ns)
     else (db.install hash lim (some h) g i).1 = .err .invalidParameter) := by
  unfold Db.install
  simp only
  cases hvl : db.valid h with
  | false => simp
  | true =>
    obtain ⟨hd, hh⟩ := valid_iff.1 hvl
    simp only [if_true, true_and]
    unfold Db.installOn
    rw [hh, lookup_eq]
    simp only [has_carries hh, carries]
    cases db.getInst h g with
    | none => simp
    | some j => simp

/-- Installing without a handle succeeds on a new, nonzero handle whenever the search for a handle value ends; it always ends
unless handle hashing is on. -/
theorem install_new {db : Db} (hr : Reachable db) (hash : Nat → Nat → Nat) (lim g i : Nat) :
    (∃ h ns, (db.install hash lim none g i).1 = .ok (h, ns) ∧ db.valid h = false ∧ h ≠ 0) ∨
    ((db.install hash lim none g i).1 = .panic ∧ db.hashing = true ∧ db.newHandle hash lim = .panic) := by
  have hv := inv_reachable hr
  cases hn : db.newHandle hash lim with
  | err e => exact absurd hn newHandle_no_err
  | panic =>
    right
    refine ⟨by unfold Db.install; simp [hn], ?_, rfl⟩
    cases hh : db.hashing with
    | true => rfl
    | false => exact absurd hn (newHandle_unhashed hh)
  | ok p =>
    left
    obtain ⟨k, db'⟩ := p
    obtain ⟨o, h1, h2, h3, h4, rfl⟩ := newHandle_spec hv hn
    suffices hs : ∃ ns, (db.install hash lim none g i).1 = .ok (k, ns) by
      obtain ⟨ns, hs⟩ := hs; exact ⟨k, ns, hs, h3, h2⟩
    unfold Db.install
    simp only [hn]
    unfold Db.installOn
    have hget : (db.handles.insert k ⟨o, []⟩).get k = some ⟨o, []⟩ := by rw [BMap.get_insert, if_pos rfl]
    have hhas : BMap.has ([] : BMap Inst) g = false := rfl
    simp only [hget, hhas, Bool.false_eq_true, if_false]
    exact ⟨_, rfl⟩

/-- With a fixed handle the same handle is answered. -/
theorem install_returns {db : Db} (hr : Reachable db) {hash : Nat → Nat → Nat} {lim : Nat} {handle : Option Nat} {g i h : Nat}
    {ns : List Notify} (ho : (db.install hash lim handle g i).1 = .ok (h, ns)) :
    handle = some h ∨ (handle = none ∧ db.valid h = false ∧ h ≠ 0) := by
  obtain ⟨o, ps, nh, _, _, _, hc⟩ := install_ok (inv_reachable hr) ho
  rcases hc with ⟨a, _⟩ | ⟨a, b, c, _⟩
  · exact Or.inl a
  · exact Or.inr ⟨a, valid_false.2 b, c⟩

/-- A successful install adds exactly the interface, with no users; nothing else changes. -/
theorem install_effect {db : Db} (hr : Reachable db) {hash : Nat → Nat → Nat} {lim : Nat} {handle : Option Nat} {g i h : Nat}
    {ns : List Notify} (ho : (db.install hash lim handle g i).1 = .ok (h, ns)) (h' g' : Nat) :
    lookup (db.install hash lim handle g i).2 h' g' = (if h' = h ∧ g' = g then some i else lookup db h' g') ∧
    users (db.install hash lim handle g i).2 h' g' = (if h' = h ∧ g' = g then [] else users db h' g') := by
  obtain ⟨o, ps, nh, h1, _, _, hc⟩ := install_ok (inv_reachable hr) ho
  have hps : ∀ g', db.getInst h g' = ps.get g' := by
    intro g'
    rcases hc with ⟨_, h1, _⟩ | ⟨_, h1, _, h2, _⟩
    · exact getInst_eq h1
    · rw [getInst_none h1, h2]; rfl
  rw [h1, lookup_eq, users_eq, putInst_getInst db h o g i ps nh hps, lookup_eq, users_eq]
  split
  · exact ⟨rfl, rfl⟩
  · exact ⟨rfl, rfl⟩

/-- A failed install changes nothing. -/
theorem install_failure {db : Db} (hr : Reachable db) {hash : Nat → Nat → Nat} {lim : Nat} {handle : Option Nat} {g i : Nat}
    (ho : ∀ r, (db.install hash lim handle g i).1 ≠ .ok r) : (db.install hash lim handle g i).2 = db :=
  install_fail (inv_reachable hr) ho

/-- The answer of uninstall: decided by the handle, the interface and the users, in this order. -/
theorem uninstall_result {db : Db} (h g i : Nat) :
    (db.uninstall h g i).1 =
      if db.valid h = false then .err .invalidParameter
      else if lookup db h g ≠ some i then .err .notFound
      else if users db h g ≠ [] then .err .accessDenied
      else .ok () := by
  unfold Db.uninstall
  cases hh : db.handles.get h with
  | none => rw [if_pos (valid_false.2 hh)]
  | some hd =>
    have hvl : db.valid h = true := valid_iff.2 ⟨hd, hh⟩
    rw [if_neg (by rw [hvl]; simp), lookup_eq, users_eq, getInst_eq hh]
    simp only
    cases hi : hd.protocols.get g with
    | none => simp
    | some j =>
      simp only [Option.map_some, Option.getD_some]
      by_cases h1 : j.interface = i
      · by_cases h2 : j.usage = []
        · simp [h1, h2]
        · simp [h1, h2]
      · simp [h1]

/-- A successful uninstall removes exactly that interface; a failed one changes nothing. -/
theorem uninstall_effect {db : Db} (h g i : Nat) :
    ((db.uninstall h g i).1 = .ok () → ∀ h' g',
      lookup (db.uninstall h g i).2 h' g' = (if h' = h ∧ g' = g then none else lookup db h' g') ∧
      users (db.uninstall h g i).2 h' g' = (if h' = h ∧ g' = g then [] else users db h' g')) ∧
    ((db.uninstall h g i).1 ≠ .ok () → (db.uninstall h g i).2 = db) := by
  rcases uninstall_cases db h g i with ⟨h1, h2⟩ | ⟨hd, j, hh, hj, hji, hju, he⟩
  · exact ⟨fun hx => absurd hx h2, fun _ => h1⟩
  · rw [he]
    refine ⟨?_, fun hx => absurd rfl hx⟩
    intro _ h' g'
    rw [lookup_eq, users_eq, uninstall_getInst hh, lookup_eq, users_eq]
    split
    · exact ⟨rfl, rfl⟩
    · exact ⟨rfl, rfl⟩

/-- No other call installs, removes or changes an interface. -/
theorem others_keep_interfaces {db : Db} (hr : Reachable db) (hash : Nat → Nat → Nat) (lim : Nat) (op : Op)
    (h1 : ∀ a b c, op ≠ .install a b c) (h2 : ∀ a b c, op ≠ .uninstall a b c) (h g : Nat) :
    lookup (db.step hash lim op) h g = lookup db h g := by
  have hv := inv_reachable hr
  have upd : ∀ h0 g0 i i', db.getInst h0 g0 = some i → i'.interface = i.interface →
      lookup (db.setInst h0 g0 i') h g = lookup db h g := by
    intro h0 g0 i i' hi hif
    rw [lookup_eq, getInst_setInst, lookup_eq]
    split
    · rename_i e; rw [e.1, e.2, hi]; exact congrArg some hif
    · rfl
  cases op with
  | install a b c => exact absurd rfl (h1 a b c)
  | uninstall a b c => exact absurd rfl (h2 a b c)
  | addUsage h0 g0 a c at_ =>
    show lookup (db.addUsage h0 g0 a c at_).2 h g = _
    unfold Db.addUsage
    split
    · rfl
    · split
      · rfl
      · rename_i i hi
        split
        · rename_i j hj
          exact upd h0 g0 i j hi (open_ok (hv.inst h0 g0 i hi) hj).2
        · rfl
        · rfl
  | removeUsage h0 g0 a c at_ =>
    show lookup (db.removeUsage h0 g0 a c at_).2 h g = _
    unfold Db.removeUsage
    split
    · rfl
    · split
      · rfl
      · rename_i i hi
        obtain ⟨j, e1, _, e3, _⟩ := closeAll_spec a c at_ (i.usage.length + 1) false i (by omega) (hv.inst h0 g0 i hi)
        simp only [e1]
        exact upd h0 g0 i j hi e3
  | register g e => rfl
  | unregister e => rfl
  | nextFresh r =>
    show lookup (db.nextFresh r).2 h g = _
    unfold Db.nextFresh
    split <;> rfl
  | enableHashing => rfl

/-! ### C13: locating -/

/-- `locate_handles(None)` reports every valid handle once. -/
theorem locate_all_exact {db : Db} (hr : Reachable db) :
    (allHandles db).Nodup ∧ (∀ h, h ∈ allHandles db ↔ db.valid h = true) ∧
    (db.locateHandles none = if allHandles db = [] then .err .notFound else .ok (allHandles db)) := by
  have hv := inv_reachable hr
  have hs := aged_spec hv
  have hmem : ∀ h, h ∈ allHandles db ↔ db.valid h = true := by
    intro h
    rw [allHandles_eq, List.mem_map, valid_iff]
    constructor
    · rintro ⟨⟨k, o⟩, h1, rfl⟩
      obtain ⟨hd, a, _⟩ := (hs.2 k o).1 h1; exact ⟨hd, a⟩
    · rintro ⟨hd, a⟩
      exact ⟨(h, hd.order), (hs.2 h hd.order).2 ⟨hd, a, rfl⟩, rfl⟩
  refine ⟨?_, hmem, ?_⟩
  · rw [allHandles_eq]
    refine List.pairwise_map.2 ?_
    refine List.Pairwise.imp_of_mem ?_ hs.1
    intro a b ha hb hlt he
    obtain ⟨x, x1, x2⟩ := (hs.2 a.1 a.2).1 ha
    obtain ⟨y, y1, y2⟩ := (hs.2 b.1 b.2).1 hb
    rw [he] at x1
    rw [x1] at y1
    cases y1
    omega
  · rw [locate_all, allHandles_eq]
    simp [List.map_eq_nil_iff]

/-- `locate_handles(Some(g))` reports exactly the handles that carry `g`, in the same order. -/
theorem locate_by_protocol {db : Db} (hr : Reachable db) (g : Nat) :
    db.locateHandles (some g) =
      if (allHandles db).filter (fun h => (lookup db h g).isSome) = [] then .err .notFound
      else .ok ((allHandles db).filter (fun h => (lookup db h g).isSome)) := by
  have hv := inv_reachable hr
  have hf : (allHandles db).filter (fun h => (lookup db h g).isSome) =
      ((aged db).filter (fun x => carries db g x.1)).map (·.1) := by
    rw [allHandles_eq, List.filter_map]
    congr 1
    refine List.filter_congr ?_
    intro x _
    show (lookup db x.1 g).isSome = carries db g x.1
    rw [lookup_eq]
    unfold carries
    cases db.getInst x.1 g <;> rfl
  rw [locate_some hv, hf]
  by_cases hn : (aged db).filter (fun x => carries db g x.1) = []
  · rw [if_pos hn, if_pos (by rw [hn]; rfl)]
  · rw [if_neg hn, if_neg (fun x => hn (List.map_eq_nil_iff.1 x))]

/-- Handles are reported in the order of their creation: a new handle goes to the end, ... -/
theorem order_install {db : Db} (hr : Reachable db) {hash : Nat → Nat → Nat} {lim : Nat} {handle : Option Nat} {g i h : Nat}
    {ns : List Notify} (ho : (db.install hash lim handle g i).1 = .ok (h, ns)) :
    allHandles (db.install hash lim handle g i).2 = if handle = none then allHandles db ++ [h] else allHandles db := by
  have hv := inv_reachable hr
  obtain ⟨o, ps, nh, h1, _, _, hc⟩ := install_ok hv ho
  have hv' := inv_putInst (g := g) (iface := i) hv hc
  have hs := aged_spec hv
  rw [h1, allHandles_eq, allHandles_eq]
  rcases hc with ⟨a, b, _⟩ | ⟨a, b, _, _, _, d, _⟩
  · have : aged (putInst db h o g i ps nh) = aged db := by
      refine aged_eq hv' hs.1 ?_
      intro k o'
      rw [hs.2, putInst_get]
      by_cases e : k = h
      · subst e
        rw [if_pos rfl, b]
        constructor
        · rintro ⟨hd, h1, h2⟩; cases h1; exact ⟨_, rfl, h2⟩
        · rintro ⟨hd, h1, h2⟩; cases h1; exact ⟨_, rfl, h2⟩
      · rw [if_neg e]
    rw [this, a]; simp
  · have : aged (putInst db h o g i ps nh) = aged db ++ [(h, o)] := by
      refine aged_eq hv' ?_ ?_
      · refine List.pairwise_append.2 ⟨hs.1, List.pairwise_singleton _ _, ?_⟩
        intro x hx y hy
        simp only [List.mem_singleton] at hy
        subst hy
        obtain ⟨hd, p, q⟩ := (hs.2 x.1 x.2).1 hx
        have := hv.order x.1 hd p
        show x.2 < o
        omega
      · intro k o'
        rw [List.mem_append, hs.2, putInst_get]
        simp only [List.mem_singleton, Prod.mk.injEq]
        by_cases e : k = h
        · subst e
          rw [if_pos rfl, b]
          constructor
          · rintro (⟨hd, h1, h2⟩ | ⟨_, h2⟩)
            · cases h1
            · exact ⟨_, rfl, h2.symm⟩
          · rintro ⟨hd, h1, h2⟩; cases h1; exact Or.inr ⟨rfl, h2.symm⟩
        · rw [if_neg e]
          constructor
          · rintro (h | ⟨h, _⟩)
            · exact h
            · exact absurd h e
          · exact Or.inl
    rw [this, a]; simp

/-- ... a handle that is gone drops out, ... -/
theorem order_uninstall {db : Db} (hr : Reachable db) (h g i : Nat) :
    allHandles (db.uninstall h g i).2 = (allHandles db).filter (fun k => (db.uninstall h g i).2.valid k) := by
  have hv := inv_reachable hr
  have hs := aged_spec hv
  have hv' := inv_uninstall hv h g i
  rw [allHandles_eq, allHandles_eq, List.filter_map]
  congr 1
  refine aged_eq hv' (hs.1.filter _) ?_
  intro k o
  rw [List.mem_filter, hs.2]
  show (_ ∧ (db.uninstall h g i).2.valid k = true) ↔ _
  rcases uninstall_cases db h g i with ⟨h1, _⟩ | ⟨hd, j, hh, _, _, _, he⟩
  · rw [h1, valid_iff]
    constructor
    · rintro ⟨a, _⟩; exact a
    · rintro ⟨a, b, c⟩; exact ⟨⟨a, b, c⟩, a, b⟩
  · rw [he, valid_iff]
    simp only [removed_get]
    by_cases e : k = h
    · subst e
      rw [if_pos rfl, hh]
      by_cases hn : hd.protocols.erase g = []
      · rw [if_pos hn]
        constructor
        · rintro ⟨_, a, b⟩; cases b
        · rintro ⟨a, b, c⟩; cases b
      · rw [if_neg hn]
        constructor
        · rintro ⟨⟨a, b, c⟩, _⟩; cases b; exact ⟨_, rfl, c⟩
        · rintro ⟨a, b, c⟩; cases b; exact ⟨⟨hd, rfl, c⟩, _, rfl⟩
    · rw [if_neg e]
      constructor
      · rintro ⟨a, _⟩; exact a
      · rintro ⟨a, b, c⟩; exact ⟨⟨a, b, c⟩, a, b⟩

/-- ... and nothing else moves. -/
theorem order_others {db : Db} (hr : Reachable db) (hash : Nat → Nat → Nat) (lim : Nat) (op : Op)
    (h1 : ∀ a b c, op ≠ .install a b c) (h2 : ∀ a b c, op ≠ .uninstall a b c) : allHandles (db.step hash lim op) = allHandles db := by
  have hv := inv_reachable hr
  have hv' := inv_step (hash := hash) (lim := lim) hv op
  have hs := aged_spec hv
  rw [allHandles_eq, allHandles_eq]
  congr 1
  have upd : ∀ h0 g0 i k o, (∃ hd, db.handles.get k = some hd ∧ hd.order = o) ↔
      ∃ hd, (db.setInst h0 g0 i).handles.get k = some hd ∧ hd.order = o := by
    intro h0 g0 i k o
    constructor
    · rintro ⟨hd, a, b⟩
      have : (db.setInst h0 g0 i).handles.has k = true := by rw [setInst_has]; exact BMap.has_iff.2 ⟨hd, a⟩
      obtain ⟨hd', a'⟩ := BMap.has_iff.1 this
      obtain ⟨hd0, c, d, _⟩ := setInst_get db h0 g0 i k hd' a'
      rw [a] at c; cases c
      exact ⟨hd', a', by omega⟩
    · rintro ⟨hd', a', b⟩
      obtain ⟨hd0, c, d, _⟩ := setInst_get db h0 g0 i k hd' a'
      exact ⟨hd0, c, by omega⟩
  refine aged_eq hv' hs.1 ?_
  intro k o
  rw [hs.2]
  cases op with
  | install a b c => exact absurd rfl (h1 a b c)
  | uninstall a b c => exact absurd rfl (h2 a b c)
  | addUsage h0 g0 a c at_ =>
    show _ ↔ ∃ hd, (db.addUsage h0 g0 a c at_).2.handles.get k = some hd ∧ _
    unfold Db.addUsage
    split
    · rfl
    · split
      · rfl
      · split
        · exact upd _ _ _ _ _
        · rfl
        · rfl
  | removeUsage h0 g0 a c at_ =>
    show _ ↔ ∃ hd, (db.removeUsage h0 g0 a c at_).2.handles.get k = some hd ∧ _
    unfold Db.removeUsage
    split
    · rfl
    · split
      · rfl
      · exact upd _ _ _ _ _
  | register g e => rfl
  | unregister e => rfl
  | nextFresh r =>
    show _ ↔ ∃ hd, (db.nextFresh r).2.handles.get k = some hd ∧ _
    unfold Db.nextFresh
    split <;> rfl
  | enableHashing => rfl

/-- `locate_protocol` finds an interface exactly when one is installed; it is the one on the lowest-numbered handle. -/
theorem locate_protocol_exact {db : Db} (hr : Reachable db) (g : Nat) :
    (db.locateProtocol g = .err .notFound ∧ ∀ h, lookup db h g = none) ∨
    ∃ h i, lookup db h g = some i ∧ db.locateProtocol g = .ok i ∧ ∀ h', (lookup db h' g).isSome = true → h ≤ h' := by
  rcases locateProtocol_spec (inv_reachable hr) g with ⟨a, b⟩ | ⟨k, i, a, b, c⟩
  · left
    exact ⟨a, fun h => by rw [lookup_eq, b h]; rfl⟩
  · right
    refine ⟨k, i.interface, by rw [lookup_eq, a]; rfl, b, ?_⟩
    intro h' hh'
    refine c h' ?_
    intro hn
    rw [lookup_eq, hn] at hh'
    cases hh'

/-- `get_child_handles` never panics and reports each controller with a `BY_CHILD_CONTROLLER` open on the handle once. -/
theorem children_exact {db : Db} (hr : Reachable db) (p : Nat) :
    ∃ l, db.children p = .ok l ∧ l.Nodup ∧ ∀ c, c ∈ l ↔ ∃ g, ∃ u ∈ users db p g, u.attrs = BY_CHILD_CONTROLLER ∧ u.controller = some c := by
  have hv := inv_reachable hr
  unfold Db.children
  cases hh : db.handles.get p with
  | none =>
    refine ⟨[], rfl, List.Pairwise.nil, ?_⟩
    intro c
    constructor
    · intro h; cases h
    · rintro ⟨g, u, h, _⟩
      rw [users_eq, getInst_none hh] at h; cases h
  | some hd =>
    simp only
    have hmem : ∀ u, u ∈ (hd.protocols.flatMap fun (x : Nat × Inst) => match x with | (_, i) => i.usage) ↔
        ∃ g, u ∈ users db p g := by
      intro u
      rw [List.mem_flatMap]
      constructor
      · rintro ⟨⟨g, i⟩, h1, h2⟩
        refine ⟨g, ?_⟩
        rw [users_eq, getInst_eq hh, BMap.get_of_mem (hv.psorted p hd hh) h1]; exact h2
      · rintro ⟨g, h1⟩
        rw [users_eq, getInst_eq hh] at h1
        cases hi : hd.protocols.get g with
        | none => rw [hi] at h1; cases h1
        | some i => rw [hi] at h1; exact ⟨(g, i), BMap.get_some_mem hi, h1⟩
    have hok : ∀ u g, u ∈ users db p g → validAttr u.attrs ∧ (isChild u.attrs = true → u.controller.isSome = true) := by
      intro u g hu
      rw [users_eq] at hu
      cases hi : db.getInst p g with
      | none => rw [hi] at hu; cases hu
      | some i =>
        rw [hi] at hu
        have := hv.inst p g i hi
        exact ⟨this.attr u hu, fun hx => this.ctrl u hu (Or.inl hx)⟩
    rw [if_pos]
    · have hsd := sortDedup_spec (((hd.protocols.flatMap fun (x : Nat × Inst) => match x with | (_, i) => i.usage).filter
        fun u => isChild u.attrs).filterMap (·.controller))
      refine ⟨_, rfl, hsd.1.imp (fun {a b} h => by omega), ?_⟩
      intro c
      rw [hsd.2, List.mem_filterMap]
      constructor
      · rintro ⟨u, h1, h2⟩
        obtain ⟨h3, h4⟩ := List.mem_filter.1 h1
        obtain ⟨g, h5⟩ := (hmem u).1 h3
        refine ⟨g, u, h5, ?_, h2⟩
        rcases (hok u g h5).1 with e | e | e | e | e | e | e
        all_goals first | exact e | (rw [e] at h4; exact absurd h4 (by decide))
      · rintro ⟨g, u, h1, h2, h3⟩
        exact ⟨u, List.mem_filter.2 ⟨(hmem u).2 ⟨g, h1⟩, by rw [h2]; rfl⟩, h3⟩
    · rw [List.all_eq_true]
      intro u hu
      obtain ⟨h3, h4⟩ := List.mem_filter.1 hu
      obtain ⟨g, h5⟩ := (hmem u).1 h3
      exact (hok u g h5).2 h4

/-! ### C14: opening and closing -/

theorem new_good (h : Nat) (a c : Option Nat) (at_ : Nat) :
    Usage.new h a c at_ = if goodArgs h a c at_ then .ok ⟨a, c, at_, 1⟩ else .err .invalidParameter := by
  unfold Usage.new
  simp only
  by_cases e8 : at_ = BY_CHILD_CONTROLLER
  · rw [if_pos e8, e8]
    unfold BY_CHILD_CONTROLLER goodArgs
    cases a with
    | none => rfl
    | some a =>
      cases c with
      | none => rfl
      | some c =>
        by_cases e : h = c
        · subst e; simp
        · have : c ≠ h := fun x => e x.symm
          simp [e, this]
  · rw [if_neg e8]
    by_cases e16 : at_ = BY_DRIVER ∨ at_ = BY_DRIVER_EXCLUSIVE
    · rw [if_pos e16]
      rcases e16 with e | e <;> subst e <;> unfold goodArgs <;> cases a <;> cases c <;> rfl
    · rw [if_neg e16]
      by_cases e32 : at_ = EXCLUSIVE
      · rw [if_pos e32, e32]; unfold goodArgs; cases a <;> rfl
      · rw [if_neg e32]
        by_cases e1 : at_ = BY_HANDLE_PROTOCOL ∨ at_ = GET_PROTOCOL ∨ at_ = TEST_PROTOCOL
        · rw [if_pos e1]
          rcases e1 with e | e | e <;> subst e <;> rfl
        · rw [if_neg e1]
          simp only [not_or] at e16 e1
          have : goodArgs h a c at_ = false := by
            unfold goodArgs
            split
            · exact absurd rfl e1.1
            · exact absurd rfl e1.2.1
            · exact absurd rfl e1.2.2
            · exact absurd rfl e8
            · exact absurd rfl e16.1
            · exact absurd rfl e16.2
            · exact absurd rfl e32
            · rfl
          rw [this]; rfl

/-- At any time at most one user has `g` on `h` open with an attribute that asks for exclusion. -/
theorem exclusion {db : Db} (hr : Reachable db) (h g : Nat) :
    ((users db h g).filter fun u => wantsExclusion u.attrs).length ≤ 1 := by
  rw [users_eq]
  cases hi : db.getInst h g with
  | none => simp
  | some i =>
    have hk := (inv_reachable hr).inst h g i hi
    simp only [Option.map_some, Option.getD_some]
    have : i.usage.filter (fun u => wantsExclusion u.attrs) = i.usage.filter hard := by
      refine List.filter_congr ?_
      intro u hu
      rcases hk.attr u hu with e | e | e | e | e | e | e <;> (unfold wantsExclusion hard; rw [e]; rfl)
    rw [this]; exact hk.one

/-- Every recorded open satisfies the argument rules. -/
theorem users_wellformed {db : Db} (hr : Reachable db) (h g : Nat) (u : Usage) (hu : u ∈ users db h g) :
    u.agent.isSome = true ∧ (u.attrs = 8 ∨ u.attrs = 0x10 ∨ u.attrs = 0x30 → u.controller.isSome = true) := by
  rw [users_eq] at hu
  cases hi : db.getInst h g with
  | none => rw [hi] at hu; cases hu
  | some i =>
    rw [hi] at hu
    have hk := (inv_reachable hr).inst h g i hi
    refine ⟨hk.agent u hu, ?_⟩
    rintro (e | e | e)
    · exact hk.ctrl u hu (by rw [e]; decide)
    · exact hk.ctrl u hu (by rw [e]; decide)
    · exact hk.ctrl u hu (by rw [e]; decide)

/-- What opening answers. -/
def openAnswer (db : Db) (h g : Nat) (a c : Option Nat) (at_ : Nat) : Outcome Err Unit :=
  if !db.valid h || !db.okHandle a || !db.okHandle c then .err .invalidParameter
  else if lookup db h g = none then .err .unsupported
  else if !goodArgs h a c at_ then .err .invalidParameter
  else if (users db h g).any (fun u => u.attrs == 0x10 || u.attrs == 0x30) &&
      (users db h g).any (fun u => u.agent == a && u.controller == c && u.attrs == at_) then .err .alreadyStarted
  else if wantsExclusion at_ && (users db h g).any (fun u => wantsExclusion u.attrs) then .err .accessDenied
  else .ok ()

theorem any_driver {i : Inst} (hk : InstOk i) : i.byDriver = i.usage.any (fun u => u.attrs == 0x10 || u.attrs == 0x30) := by
  rw [hk.drv]
  have : ∀ u ∈ i.usage, isDriver u.attrs = (u.attrs == 0x10 || u.attrs == 0x30) := by
    intro u hu
    rcases hk.attr u hu with e | e | e | e | e | e | e <;> rw [e] <;> rfl
  rw [Bool.eq_iff_iff, List.any_eq_true, List.any_eq_true]
  constructor
  · rintro ⟨u, a, b⟩; exact ⟨u, a, by rw [← this u a]; exact b⟩
  · rintro ⟨u, a, b⟩; exact ⟨u, a, by rw [this u a]; exact b⟩

theorem any_hard {i : Inst} (hk : InstOk i) : (i.byExclusive || i.byDriver) = i.usage.any (fun u => wantsExclusion u.attrs) := by
  rw [hk.drv, hk.exc, Bool.eq_iff_iff, Bool.or_eq_true, List.any_eq_true, List.any_eq_true, List.any_eq_true]
  have : ∀ u ∈ i.usage, (isExclusive u.attrs || isDriver u.attrs) = wantsExclusion u.attrs := by
    intro u hu
    rcases hk.attr u hu with e | e | e | e | e | e | e <;> rw [e] <;> rfl
  constructor
  · rintro (⟨u, a, b⟩ | ⟨u, a, b⟩)
    · exact ⟨u, a, by rw [← this u a, b]; rfl⟩
    · exact ⟨u, a, by rw [← this u a, b]; simp⟩
  · rintro ⟨u, a, b⟩
    rw [← this u a] at b
    rcases Bool.or_eq_true_iff.1 b with b | b
    · exact Or.inl ⟨u, a, b⟩
    · exact Or.inr ⟨u, a, b⟩

/-- The open of one instance, in full. -/
theorem open_full {i : Inst} (hk : InstOk i) (h : Nat) (a c : Option Nat) (at_ : Nat) :
    i.open h a c at_ =
      if !goodArgs h a c at_ then .err .invalidParameter
      else if i.usage.any (fun u => u.attrs == 0x10 || u.attrs == 0x30) && i.usage.any (fun u => u.agent == a && u.controller == c && u.attrs == at_) then
        .err .alreadyStarted
      else if wantsExclusion at_ && i.usage.any (fun u => wantsExclusion u.attrs) then .err .accessDenied
      else if i.usage.any (fun u => u.agent == a && u.controller == c && u.attrs == at_) && !i.byExclusive then
        .ok { i with usage := bump ⟨a, c, at_, 1⟩ i.usage }
      else if a.isNone then .ok i
      else .ok { i with byDriver := i.byDriver || isDriver at_, byExclusive := i.byExclusive || isExclusive at_,
                        usage := i.usage ++ [⟨a, c, at_, 1⟩] } := by
  unfold Inst.open
  rw [new_good]
  cases hga : goodArgs h a c at_ with
  | false => rfl
  | true =>
    have hval : validAttr at_ := (new_ok (h := h) (a := a) (c := c) (at_ := at_) (u := ⟨a, c, at_, 1⟩) (by rw [new_good, hga]; rfl)).2.1
    have hsame : ∀ u : Usage, u.same ⟨a, c, at_, 1⟩ = (u.agent == a && u.controller == c && u.attrs == at_) := fun _ => rfl
    simp only [Bool.not_true, Bool.false_eq_true, if_false, if_true, ← any_driver hk, ← any_hard hk, hsame]
    have hw : wantsExclusion at_ = true ↔ (at_ = BY_DRIVER ∨ at_ = EXCLUSIVE ∨ at_ = BY_DRIVER_EXCLUSIVE) := by
      rcases hval with e | e | e | e | e | e | e <;> subst e <;> decide
    -- a match with an exclusive attribute means the instance is exclusively open
    have hmx : i.usage.any (fun u => u.agent == a && u.controller == c && u.attrs == at_) = true → wantsExclusion at_ = true →
        (i.byExclusive || i.byDriver) = true := by
      intro hm hwx
      rw [any_hard hk]
      obtain ⟨u, hu, he⟩ := List.any_eq_true.1 hm
      simp only [Bool.and_eq_true, beq_iff_eq] at he
      exact List.any_eq_true.2 ⟨u, hu, by rw [he.2]; exact hwx⟩
    cases hm : i.usage.any (fun u => u.agent == a && u.controller == c && u.attrs == at_) with
    | false =>
      simp only [Bool.and_false, Bool.false_eq_true, if_false, Bool.false_and]
      by_cases hwx : wantsExclusion at_ = true
      · have hP := hw.1 hwx
        by_cases hd : i.byExclusive = true ∨ i.byDriver = true
        · rw [if_pos ⟨hP, hd⟩, if_pos]
          rw [hwx]; simpa using hd
        · have hd' : ¬ ((wantsExclusion at_ && (i.byExclusive || i.byDriver)) = true) := by
            rw [hwx]; simpa using hd
          rw [if_neg (fun x => hd x.2), if_neg hd']
      · have hP : ¬ (at_ = BY_DRIVER ∨ at_ = EXCLUSIVE ∨ at_ = BY_DRIVER_EXCLUSIVE) := fun x => hwx (hw.2 x)
        have hd' : ¬ ((wantsExclusion at_ && (i.byExclusive || i.byDriver)) = true) :=
          fun hx => hwx (Bool.and_eq_true_iff.1 hx).1
        rw [if_neg (fun x => hP x.1), if_neg hd']
    | true =>
      have hmx := hmx hm
      simp only [Bool.and_true, Bool.true_and]
      cases hdrv : i.byDriver with
      | true => rfl
      | false =>
        simp only [Bool.false_eq_true, if_false, Bool.or_false]
        rw [hdrv] at hmx
        cases hexc : i.byExclusive with
        | false =>
          simp only [Bool.not_false, if_true, Bool.and_false, Bool.false_eq_true, if_false]
          rfl
        | true =>
          simp only [Bool.not_true, Bool.false_eq_true, if_false, Bool.and_true]
          by_cases hwx : wantsExclusion at_ = true
          · rw [if_pos ⟨hw.1 hwx, Or.inl trivial⟩, if_pos hwx]
          · rw [if_neg (fun x => hwx (hw.2 x.1)), if_neg hwx]

/-- The answer of opening is decided by the handles, the interface, the argument rules, and the current users: a request for
exclusion is granted exactly when no user holds one. -/
theorem open_result {db : Db} (hr : Reachable db) (h g : Nat) (a c : Option Nat) (at_ : Nat) :
    (db.addUsage h g a c at_).1 = openAnswer db h g a c at_ := by
  unfold Db.addUsage openAnswer
  split
  · rfl
  · rw [lookup_eq, users_eq]
    cases hi : db.getInst h g with
    | none => rfl
    | some i =>
      have hk := (inv_reachable hr).inst h g i hi
      simp only [Option.map_some, Option.getD_some, reduceCtorEq, if_false]
      rw [open_full hk]
      by_cases h1 : (!goodArgs h a c at_) = true
      · rw [if_pos h1, if_pos h1]
      · rw [if_neg h1, if_neg h1]
        by_cases h2 : (i.usage.any (fun u => u.attrs == 0x10 || u.attrs == 0x30) &&
            i.usage.any (fun u => u.agent == a && u.controller == c && u.attrs == at_)) = true
        · rw [if_pos h2, if_pos h2]
        · rw [if_neg h2, if_neg h2]
          by_cases h3 : (wantsExclusion at_ && i.usage.any (fun u => wantsExclusion u.attrs)) = true
          · rw [if_pos h3, if_pos h3]
          · rw [if_neg h3, if_neg h3]
            by_cases h4 : (i.usage.any (fun u => u.agent == a && u.controller == c && u.attrs == at_) && !i.byExclusive) = true
            · rw [if_pos h4]
            · rw [if_neg h4]
              by_cases h5 : a.isNone = true
              · rw [if_pos h5]
              · rw [if_neg h5]

/-- A refused open changes nothing. -/
theorem open_failure {db : Db} (h g : Nat) (a c : Option Nat) (at_ : Nat) (hf : (db.addUsage h g a c at_).1 ≠ .ok ()) :
    (db.addUsage h g a c at_).2 = db := by
  unfold Db.addUsage at *
  split
  · rfl
  · rename_i h1
    rw [if_neg h1] at hf
    split
    · rfl
    · rename_i i hi
      rw [hi] at hf
      simp only at hf
      split
      · rename_i j hj
        rw [hj] at hf
        exact absurd rfl hf
      · rfl
      · rfl

theorem sum_bump (u : Usage) (l : List Usage) (hm : l.any (·.same u) = true) (key : Option Nat × Option Nat × Nat) :
    ((bump u l).map fun x => if (x.agent, x.controller, x.attrs) = key then x.count else 0).sum =
      (l.map fun x => if (x.agent, x.controller, x.attrs) = key then x.count else 0).sum +
        if (u.agent, u.controller, u.attrs) = key then 1 else 0 := by
  induction l with
  | nil => cases hm
  | cons x l ih =>
    rw [bump_cons]
    by_cases hx : x.same u = true
    · rw [if_pos hx]
      obtain ⟨e1, e2, e3⟩ := same_iff.1 hx
      simp only [List.map_cons, List.sum_cons, e1, e2, e3]
      split <;> omega
    · rw [if_neg hx]
      rw [List.any_cons] at hm
      simp only [hx, Bool.false_or] at hm
      simp only [List.map_cons, List.sum_cons, ih hm]
      omega

/-- A granted open by an agent is counted exactly once, for exactly that agent, controller and attributes; an open without an
agent leaves no trace; other instances are untouched. -/
theorem open_effect {db : Db} (hr : Reachable db) (h g : Nat) (a c : Option Nat) (at_ : Nat)
    (hok : (db.addUsage h g a c at_).1 = .ok ()) (h' g' : Nat) (key : Option Nat × Option Nat × Nat) :
    openCount (db.addUsage h g a c at_).2 h' g' key =
      openCount db h' g' key + if h' = h ∧ g' = g ∧ a.isSome = true ∧ key = (a, c, at_) then 1 else 0 := by
  have hv := inv_reachable hr
  unfold Db.addUsage at *
  split at hok
  · cases hok
  · rename_i h1
    rw [if_neg h1]
    cases hi : db.getInst h g with
    | none => rw [hi] at hok; cases hok
    | some i =>
      rw [hi] at hok
      simp only at hok ⊢
      have hk := hv.inst h g i hi
      have hfull := open_full hk h a c at_
      cases hj : i.open h a c at_ with
      | err e => rw [hj] at hok; cases hok
      | panic => rw [hj] at hok; cases hok
      | ok j =>
        simp only
        unfold openCount
        rw [users_eq, users_eq, getInst_setInst]
        by_cases e : h' = h ∧ g' = g
        · obtain ⟨rfl, rfl⟩ := e
          rw [if_pos ⟨rfl, rfl⟩, hi]
          simp only [Option.map_some, Option.getD_some, true_and]
          rw [hj] at hfull
          split at hfull
          · cases hfull
          · split at hfull
            · cases hfull
            · split at hfull
              · cases hfull
              · split at hfull
                · rename_i hmm
                  cases hfull
                  have hm := (Bool.and_eq_true_iff.1 hmm).1
                  rw [sum_bump ⟨a, c, at_, 1⟩ i.usage hm]
                  have hag : a.isSome = true := by
                    obtain ⟨u, hu, he⟩ := List.any_eq_true.1 hm
                    simp only [Bool.and_eq_true, beq_iff_eq] at he
                    rw [← he.1.1]; exact hk.agent u hu
                  congr 1
                  by_cases hkey : key = (a, c, at_)
                  · rw [if_pos hkey.symm, if_pos ⟨hag, hkey⟩]
                  · rw [if_neg (fun x => hkey x.symm), if_neg (fun x => hkey x.2)]
                · split at hfull
                  · rename_i hn
                    cases hfull
                    rw [if_neg]
                    · rfl
                    · rintro ⟨hx, _⟩
                      cases a with
                      | none => cases hx
                      | some a => cases hn
                  · rename_i hn
                    cases hfull
                    simp only [List.map_append, List.sum_append, List.map_cons, List.map_nil, List.sum_cons, List.sum_nil, Nat.add_zero]
                    have hag : a.isSome = true := by cases a with | none => exact absurd rfl hn | some a => rfl
                    by_cases hkey : key = (a, c, at_)
                    · rw [if_pos hkey.symm, if_pos ⟨hag, hkey⟩]
                    · rw [if_neg (fun x => hkey x.symm), if_neg (fun x => hkey x.2)]
        · rw [if_neg e, if_neg (fun x => e ⟨x.1, x.2.1⟩)]
          rfl

theorem close_lemma {db : Db} (hr : Reachable db) (h g : Nat) (a c at_ : Option Nat) :
    (db.removeUsage h g a c at_).1 =
      (if !db.valid h || !db.okHandle a || !db.okHandle c then .err .invalidParameter
       else if (users db h g).any (Usage.closes a c at_) then .ok () else .err .notFound) ∧
    ∀ h' g', users (db.removeUsage h g a c at_).2 h' g' =
      if h' = h ∧ g' = g ∧ (db.removeUsage h g a c at_).1 = .ok () then (users db h g).filter (fun u => !u.closes a c at_) else users db h' g' := by
  have hv := inv_reachable hr
  unfold Db.removeUsage
  split
  · refine ⟨rfl, ?_⟩
    intro h' g'
    rw [if_neg]
    rintro ⟨_, _, hx⟩; cases hx
  · cases hi : db.getInst h g with
    | none =>
      have : users db h g = [] := by rw [users_eq, hi]; rfl
      refine ⟨by simp [this], ?_⟩
      intro h' g'
      rw [if_neg]
      rintro ⟨_, _, hx⟩; cases hx
    | some i =>
      obtain ⟨j, e1, e2, e3, e4⟩ := closeAll_spec a c at_ (i.usage.length + 1) false i (by omega) (hv.inst h g i hi)
      have hu : users db h g = i.usage := by rw [users_eq, hi]; rfl
      simp only [e1, Bool.false_or, hu]
      refine ⟨trivial, ?_⟩
      intro h' g'
      rw [users_eq, getInst_setInst]
      by_cases e : h' = h ∧ g' = g
      · obtain ⟨rfl, rfl⟩ := e
        rw [if_pos ⟨rfl, rfl⟩, hi]
        simp only [Option.map_some, Option.getD_some, true_and]
        rw [e2]
        cases hany : i.usage.any (Usage.closes a c at_) with
        | true => rw [if_pos rfl, if_pos rfl]
        | false =>
          simp only [Bool.false_eq_true, if_false, reduceCtorEq]
          rw [hu, List.filter_eq_self]
          intro u hu'
          rw [List.any_eq_false] at hany
          simpa using hany u hu'
      · rw [if_neg e, if_neg (fun x => e ⟨x.1, x.2.1⟩), users_eq]

/-- An open was made by this agent for this controller, with these attributes if any are given. -/
def Matching (agent controller attrs : Option Nat) (u : Usage) : Prop :=
  u.agent = agent ∧ u.controller = controller ∧ ∀ x, attrs = some x → u.attrs = x

instance (a c at_ : Option Nat) (u : Usage) : Decidable (Matching a c at_ u) := by
  unfold Matching
  cases at_ with
  | none => exact decidable_of_iff (u.agent = a ∧ u.controller = c) (by simp)
  | some x => exact decidable_of_iff (u.agent = a ∧ u.controller = c ∧ u.attrs = x) (by simp)

theorem closes_eq (a c at_ : Option Nat) (u : Usage) : u.closes a c at_ = decide (Matching a c at_ u) := by
  rw [eq_comm, Bool.eq_iff_iff, decide_eq_true_iff]
  unfold Usage.closes Matching
  cases at_ <;> simp [and_assoc]

/-- Closing: fails with `NOT_FOUND` and no effect when nothing matches; otherwise every matching open goes, and nothing else. -/
theorem close_exact {db : Db} (hr : Reachable db) (h g : Nat) (a c at_ : Option Nat) :
    (db.removeUsage h g a c at_).1 =
      (if !db.valid h || !db.okHandle a || !db.okHandle c then .err .invalidParameter
       else if ∃ u ∈ users db h g, Matching a c at_ u then .ok () else .err .notFound) ∧
    ∀ h' g', users (db.removeUsage h g a c at_).2 h' g' =
      if h' = h ∧ g' = g ∧ (db.removeUsage h g a c at_).1 = .ok () then
        (users db h g).filter (fun u => ¬ Matching a c at_ u) else users db h' g' := by
  obtain ⟨h1, h2⟩ := close_lemma hr h g a c at_
  have hf : ∀ u : Usage, (!u.closes a c at_) = decide (¬ Matching a c at_ u) := by
    intro u; rw [closes_eq]; simp
  have hex : ((users db h g).any (Usage.closes a c at_) = true) ↔ ∃ u ∈ users db h g, Matching a c at_ u := by
    rw [List.any_eq_true]
    constructor <;> rintro ⟨u, hu, hm⟩ <;> exact ⟨u, hu, by simpa [closes_eq] using hm⟩
  refine ⟨?_, fun h' g' => ?_⟩
  · rw [h1]; simp only [hex]
  · rw [h2 h' g']; simp only [hf]

/-- Users change only by opening, closing, and a successful install or uninstall of that very protocol. -/
theorem others_keep_users {db : Db} (hash : Nat → Nat → Nat) (lim : Nat) (op : Op)
    (h1 : ∀ a b c, op ≠ .install a b c) (h2 : ∀ a b c, op ≠ .uninstall a b c)
    (h3 : ∀ h g a c at_, op ≠ .addUsage h g a c at_) (h4 : ∀ h g a c at_, op ≠ .removeUsage h g a c at_) (h g : Nat) :
    users (db.step hash lim op) h g = users db h g := by
  cases op with
  | install a b c => exact absurd rfl (h1 a b c)
  | uninstall a b c => exact absurd rfl (h2 a b c)
  | addUsage h0 g0 a c at_ => exact absurd rfl (h3 h0 g0 a c at_)
  | removeUsage h0 g0 a c at_ => exact absurd rfl (h4 h0 g0 a c at_)
  | register g e => rfl
  | unregister e => rfl
  | nextFresh r =>
    show users (db.nextFresh r).2 h g = _
    unfold Db.nextFresh
    split <;> rfl
  | enableHashing => rfl

/-! ### C15: nothing is pulled from under its user -/

/-- While someone is recorded as a user of `g` on `h`, no call other than an explicit close takes the interface away or
replaces it. -/
theorem used_stays {db : Db} (hr : Reachable db) (hash : Nat → Nat → Nat) (lim : Nat) (op : Op) (h g : Nat) (u : Usage)
    (hu : u ∈ users db h g) (hc : ∀ a c at_, op ≠ .removeUsage h g a c at_) :
    lookup (db.step hash lim op) h g = lookup db h g ∧ (lookup db h g).isSome = true ∧
    ∃ u' ∈ users (db.step hash lim op) h g, u'.agent = u.agent ∧ u'.controller = u.controller ∧ u'.attrs = u.attrs := by
  have hv := inv_reachable hr
  have hne : users db h g ≠ [] := List.ne_nil_of_mem hu
  have hsome : (lookup db h g).isSome = true := by
    rw [users_eq] at hu
    rw [lookup_eq]
    cases hi : db.getInst h g with
    | none => rw [hi] at hu; cases hu
    | some i => rfl
  suffices hx : lookup (db.step hash lim op) h g = lookup db h g ∧
      ∃ u' ∈ users (db.step hash lim op) h g, u'.agent = u.agent ∧ u'.controller = u.controller ∧ u'.attrs = u.attrs from
    ⟨hx.1, hsome, hx.2⟩
  have same : ∀ db', users db' h g = users db h g →
      ∃ u' ∈ users db' h g, u'.agent = u.agent ∧ u'.controller = u.controller ∧ u'.attrs = u.attrs :=
    fun db' e => ⟨u, by rw [e]; exact hu, rfl, rfl, rfl⟩
  by_cases hin : ∃ a b c, op = .install a b c
  · obtain ⟨handle, g0, i0, rfl⟩ := hin
    show lookup (db.install hash lim handle g0 i0).2 h g = _ ∧ ∃ u' ∈ users (db.install hash lim handle g0 i0).2 h g, _
    by_cases ho : ∃ r, (db.install hash lim handle g0 i0).1 = .ok r
    · obtain ⟨⟨h0, ns⟩, ho⟩ := ho
      have := install_effect hr ho h g
      have hno : ¬ (h = h0 ∧ g = g0) := by
        rintro ⟨rfl, rfl⟩
        rcases install_returns hr ho with rfl | ⟨rfl, hvl, _⟩
        · have hx := install_existing (db := db) hash lim h g i0
          rw [if_neg (fun x => by rw [x.2] at hsome; cases hsome), ho] at hx
          cases hx
        · rw [lookup_eq, getInst_none (valid_false.1 hvl)] at hsome; cases hsome
      rw [if_neg hno, if_neg hno] at this
      exact ⟨this.1, same _ this.2⟩
    · rw [install_fail hv (fun r hr => ho ⟨r, hr⟩)]
      exact ⟨rfl, same _ rfl⟩
  · by_cases hun : ∃ a b c, op = .uninstall a b c
    · obtain ⟨h0, g0, i0, rfl⟩ := hun
      show lookup (db.uninstall h0 g0 i0).2 h g = _ ∧ ∃ u' ∈ users (db.uninstall h0 g0 i0).2 h g, _
      obtain ⟨e1, e2⟩ := uninstall_effect (db := db) h0 g0 i0
      by_cases ho : (db.uninstall h0 g0 i0).1 = .ok ()
      · have := e1 ho h g
        have hno : ¬ (h = h0 ∧ g = g0) := by
          rintro ⟨rfl, rfl⟩
          rw [uninstall_result] at ho
          split at ho
          · cases ho
          · split at ho
            · cases ho
            · first | (rw [if_pos hne] at ho; cases ho) | cases ho
        rw [if_neg hno, if_neg hno] at this
        exact ⟨this.1, same _ this.2⟩
      · rw [e2 ho]; exact ⟨rfl, same _ rfl⟩
    · have hi' : ∀ a b c, op ≠ .install a b c := fun a b c e => hin ⟨a, b, c, e⟩
      have hu' : ∀ a b c, op ≠ .uninstall a b c := fun a b c e => hun ⟨a, b, c, e⟩
      refine ⟨others_keep_interfaces hr hash lim op hi' hu' h g, ?_⟩
      cases op with
      | install a b c => exact absurd rfl (hi' a b c)
      | uninstall a b c => exact absurd rfl (hu' a b c)
      | addUsage h0 g0 a c at_ =>
        show ∃ u' ∈ users (db.addUsage h0 g0 a c at_).2 h g, _
        by_cases ho : (db.addUsage h0 g0 a c at_).1 = .ok ()
        · unfold Db.addUsage at *
          split at ho
          · cases ho
          · rename_i h1
            rw [if_neg h1]
            cases hi : db.getInst h0 g0 with
            | none => rw [hi] at ho; cases ho
            | some i =>
              rw [hi] at ho
              simp only at ho ⊢
              have hk := hv.inst h0 g0 i hi
              have hfull := open_full hk h0 a c at_
              cases hj : i.open h0 a c at_ with
              | err e => rw [hj] at ho; cases ho
              | panic => rw [hj] at ho; cases ho
              | ok j =>
                simp only
                rw [users_eq, getInst_setInst]
                by_cases e : h = h0 ∧ g = g0
                · obtain ⟨rfl, rfl⟩ := e
                  rw [if_pos ⟨rfl, rfl⟩, hi]
                  simp only [Option.map_some, Option.getD_some]
                  rw [users_eq, hi] at hu
                  simp only [Option.map_some, Option.getD_some] at hu
                  rw [hj] at hfull
                  split at hfull
                  · cases hfull
                  · split at hfull
                    · cases hfull
                    · split at hfull
                      · cases hfull
                      · split at hfull
                        · cases hfull
                          have hb := bump_attrs ⟨a, c, at_, 1⟩ i.usage
                          have : (u.agent, u.controller, u.attrs) ∈ i.usage.map (fun x => (x.agent, x.controller, x.attrs)) :=
                            List.mem_map_of_mem (f := fun x => (x.agent, x.controller, x.attrs)) hu
                          rw [← hb] at this
                          obtain ⟨w, hw, he⟩ := List.mem_map.1 this
                          simp only [Prod.mk.injEq] at he
                          exact ⟨w, hw, he⟩
                        · split at hfull
                          · cases hfull; exact ⟨u, hu, rfl, rfl, rfl⟩
                          · cases hfull; exact ⟨u, by simp [hu], rfl, rfl, rfl⟩
                · rw [if_neg e, ← users_eq]
                  exact ⟨u, hu, rfl, rfl, rfl⟩
        · rw [open_failure h0 g0 a c at_ ho]; exact same _ rfl
      | removeUsage h0 g0 a c at_ =>
        have := (close_lemma hr h0 g0 a c at_).2 h g
        refine same _ ?_
        show users (db.removeUsage h0 g0 a c at_).2 h g = _
        rw [this, if_neg]
        rintro ⟨rfl, rfl, _⟩
        exact hc a c at_ rfl
      | register g0 e => exact same _ rfl
      | unregister e => exact same _ rfl
      | nextFresh r =>
        refine same _ ?_
        show users (db.nextFresh r).2 h g = _
        unfold Db.nextFresh
        split <;> rfl
      | enableHashing => exact same _ rfl

end Verif.Protocol
