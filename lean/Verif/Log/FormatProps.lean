import Verif.Log.JsonSpec

/-!
# Properties of the lines of a log (C110)
-/

namespace Verif.Log

/-- A text that needs no escapes in JSON. -/
def Plain (l : List Char) : Prop := ∀ c ∈ l, isPlain c = true

theorem readString_plain {s : List Char} (h : Plain s) (rest : List Char) :
    readString (s ++ '"' :: rest) = some (s, rest) := by
  induction s with
  | nil => rw [List.nil_append, readString]
  | cons c s ih =>
    have hc := h c (by simp)
    have h1 : c ≠ '"' := by rintro rfl; revert hc; decide
    have h2 : c ≠ '\\' := by rintro rfl; revert hc; decide
    rw [List.cons_append, readString.eq_def]
    split
    · rename_i heq; cases heq
    · rename_i heq; injection heq with a _; exact absurd a h1
    · rename_i heq; injection heq with a _; exact absurd a h2
    · rename_i heq; injection heq with a _; exact absurd a h2
    · rename_i heq
      injection heq with a b
      subst a b
      rw [if_pos hc, ih fun d hd => h d (by simp [hd])]
      rfl

theorem level_plain (l : Level) : Plain l.text := by
  cases l <;> (unfold Plain; decide)

theorem digit_plain (n : Nat) : Plain (Nat.toDigits 10 n) := by
  intro c hc
  have h := Nat.isDigit_of_mem_toDigits (by decide) (by decide) hc
  rw [Char.isDigit, Bool.and_eq_true, decide_eq_true_eq, decide_eq_true_eq] at h
  have h0 : 48 ≤ c.toNat := h.1
  have h9 : c.toNat ≤ 57 := h.2
  unfold isPlain
  have h1 : c ≠ '"' := by rintro rfl; revert h0; decide
  have h2 : c ≠ '\\' := by rintro rfl; revert h9; decide
  simp [h1, h2]
  omega

theorem line_plain (r : Record) : Plain r.lineText := digit_plain _

/-- A member with plain name and value, followed by another. -/
theorem member_next {n : Nat} {l name value rest : List Char} (hn : Plain name) (hv : Plain value)
    (hl : skip l = '"' :: (name ++ '"' :: ':' :: ' ' :: '"' :: (value ++ '"' :: ',' :: rest))) :
    readMembers (n + 1) l = (readMembers n rest).map ((name, value) :: ·) := by
  have he : expect ':' (':' :: ' ' :: '"' :: (value ++ '"' :: ',' :: rest)) =
      some ('"' :: (value ++ '"' :: ',' :: rest)) := rfl
  have hs : skip (',' :: rest) = ',' :: rest := rfl
  rw [readMembers, hl]
  simp only [List.head?_cons, List.tail_cons, if_true, Option.bind_eq_bind, Option.bind_some,
    readString_plain hn, readString_plain hv, he, hs]

/-- The last member, with plain name and value, and the end of the line. -/
theorem member_last {n : Nat} {l name value : List Char} (hn : Plain name) (hv : Plain value)
    (hl : skip l = '"' :: (name ++ '"' :: ':' :: ' ' :: '"' :: (value ++ '"' :: '}' :: ['\n']))) :
    readMembers (n + 1) l = some [(name, value)] := by
  have he : expect ':' (':' :: ' ' :: '"' :: (value ++ '"' :: '}' :: ['\n'])) =
      some ('"' :: (value ++ '"' :: '}' :: ['\n'])) := rfl
  have hs : skip ['}', '\n'] = ['}', '\n'] := rfl
  have hs' : skip ['\n'] = [] := rfl
  rw [readMembers, hl]
  simp only [List.head?_cons, List.tail_cons, if_true, Option.bind_eq_bind, Option.bind_some,
    readString_plain hn, readString_plain hv, he, hs, hs']

/-- A member with plain name and value, followed by something that is neither a comma nor the end. -/
theorem member_bad {n : Nat} {l name value rest : List Char} (hn : Plain name) (hv : Plain value)
    (hl : skip l = '"' :: (name ++ '"' :: ':' :: ' ' :: '"' :: (value ++ '"' :: ' ' :: '"' :: rest))) :
    readMembers (n + 1) l = none := by
  have he : expect ':' (':' :: ' ' :: '"' :: (value ++ '"' :: ' ' :: '"' :: rest)) =
      some ('"' :: (value ++ '"' :: ' ' :: '"' :: rest)) := rfl
  have hs : skip (' ' :: '"' :: rest) = '"' :: rest := rfl
  rw [readMembers, hl]
  simp only [List.head?_cons, List.tail_cons, if_true, Option.bind_eq_bind, Option.bind_some,
    readString_plain hn, readString_plain hv, he, hs]
  rfl

theorem object_read (body : List Char) :
    readObject ('{' :: '"' :: body) = readMembers (body.length + 2) ('"' :: body) := rfl

theorem skip_quote (l : List Char) : skip ('"' :: l) = '"' :: l := rfl

theorem skip_blank_quote (l : List Char) : skip (' ' :: '"' :: l) = '"' :: l := rfl

/-- The fixed pieces of text of the JSON formats, split where a reader splits them. -/
theorem piece_level : "{\"level\": \"".toList = '{' :: '"' :: ("level".toList ++ ['"', ':', ' ', '"']) := by simp

theorem piece_target : "\", \"target\": \"".toList =
    '"' :: ',' :: ' ' :: '"' :: ("target".toList ++ ['"', ':', ' ', '"']) := by simp

theorem piece_message : "\", \"message\": \"".toList =
    '"' :: ',' :: ' ' :: '"' :: ("message".toList ++ ['"', ':', ' ', '"']) := by simp

theorem piece_file : "\", \"file\": \"".toList =
    '"' :: ',' :: ' ' :: '"' :: ("file".toList ++ ['"', ':', ' ', '"']) := by simp

theorem piece_line : "\", \"line\": \"".toList =
    '"' :: ',' :: ' ' :: '"' :: ("line".toList ++ ['"', ':', ' ', '"']) := by simp

theorem piece_end : "\"}\n".toList = ['"', '}', '\n'] := by simp

theorem newline : "\n".toList = ['\n'] := by simp

theorem piece_no_comma : "\" \"message\": \"".toList = '"' :: ' ' :: '"' :: "message\": \"".toList := by simp

/-- C110 (finding): a line in the JSON format is never JSON: there is no comma between its members. -/
theorem json_line_is_not_json (r : Record) : readObject (Format.json.write r) = none := by
  have h : Format.json.write r = '{' :: '"' :: ("level".toList ++ '"' :: ':' :: ' ' :: '"' :: (r.level.text ++
      '"' :: ' ' :: '"' :: ("message\": \"".toList ++ (r.args ++ "\"}\n".toList)))) := by
    unfold Format.write
    simp only []
    rw [piece_level, piece_no_comma]
    simp only [List.append_assoc, List.cons_append, List.nil_append]
  rw [h, object_read]
  exact member_bad (by unfold Plain; decide) (level_plain _) (skip_quote _)

/-- C110 (partial): a line in the verbose JSON format is a JSON object that gives back the level, the target, the
message, the file and the line of the record, when none of these texts contains a quote, a backslash or a control
character.  Missing: the other texts, which are not escaped. -/
theorem verbose_json_read_partial (r : Record) (ht : Plain r.target) (ha : Plain r.args) (hf : Plain r.fileText) :
    readObject (Format.verboseJson.write r) = some
      [("level".toList, r.level.text), ("target".toList, r.target), ("message".toList, r.args),
        ("file".toList, r.fileText), ("line".toList, r.lineText)] := by
  have h : Format.verboseJson.write r = '{' :: '"' :: ("level".toList ++ '"' :: ':' :: ' ' :: '"' :: (r.level.text ++
      '"' :: ',' :: ' ' :: '"' :: ("target".toList ++ '"' :: ':' :: ' ' :: '"' :: (r.target ++
      '"' :: ',' :: ' ' :: '"' :: ("message".toList ++ '"' :: ':' :: ' ' :: '"' :: (r.args ++
      '"' :: ',' :: ' ' :: '"' :: ("file".toList ++ '"' :: ':' :: ' ' :: '"' :: (r.fileText ++
      '"' :: ',' :: ' ' :: '"' :: ("line".toList ++ '"' :: ':' :: ' ' :: '"' :: (r.lineText ++
      '"' :: '}' :: ['\n'])))))))))) := by
    unfold Format.write
    simp only []
    rw [piece_level, piece_target, piece_message, piece_file, piece_line, piece_end]
    simp only [List.append_assoc, List.cons_append, List.nil_append]
  rw [h, object_read]
  have hl : ∀ n, 3 ≤ n → ∃ m, n = m + 3 := fun n hn => ⟨n - 3, by omega⟩
  generalize hn : List.length (α := Char) _ = n
  obtain ⟨m, rfl⟩ := hl n (by subst hn; simp only [List.length_cons, List.length_append]; omega)
  rw [member_next (by unfold Plain; decide) (level_plain _) (skip_quote _),
    member_next (by unfold Plain; decide) ht (skip_blank_quote _),
    member_next (by unfold Plain; decide) ha (skip_blank_quote _),
    member_next (by unfold Plain; decide) hf (skip_blank_quote _),
    member_last (by unfold Plain; decide) (line_plain _) (skip_blank_quote _)]
  rfl

/-- A record whose message quotes a name. -/
def quoting : Record :=
  { level := .info, target := "boot".toList, args := "loaded \"Shell\"".toList, file := some "src/a.rs".toList,
    line := some 7 }

/-- A record whose message pretends to be a second record's fields. -/
def forging : Record :=
  { level := .trace, target := "boot".toList, args := "x\", \"level\": \"ERROR".toList, file := none, line := none }

/-- C110 (finding): a message with a quote in it makes a line that is not JSON, and a message can add members of its own
to the object, here a second level. -/
theorem message_not_escaped :
    readObject (Format.verboseJson.write quoting) = none ∧
      readObject (Format.verboseJson.write forging) = some
        [("level".toList, "TRACE".toList), ("target".toList, "boot".toList), ("message".toList, "x".toList),
          ("level".toList, "ERROR".toList), ("file".toList, "unknown".toList), ("line".toList, "0".toList)] := by
  decide +kernel

/-- C110: every line ends with a newline, whatever the format. -/
theorem line_ends (f : Format) (r : Record) : ∃ l, f.write r = l ++ ['\n'] := by
  have app : ∀ a b : List Char, (∃ l, b = l ++ ['\n']) → ∃ l, a ++ b = l ++ ['\n'] := by
    rintro a b ⟨l, rfl⟩
    exact ⟨a ++ l, by rw [List.append_assoc]⟩
  have hn : ∃ l, "\n".toList = l ++ ['\n'] := ⟨[], newline⟩
  have he : ∃ l, "\"}\n".toList = l ++ ['\n'] := ⟨['"', '}'], piece_end⟩
  unfold Format.write
  cases f
  · simp only []
    split
    · exact app _ _ hn
    · exact app _ _ hn
  · exact app _ _ he
  · exact app _ _ he

/-- The first letter of a level. -/
def Level.letter : Level → Char
  | .error => 'E'
  | .warn => 'W'
  | .info => 'I'
  | .debug => 'D'
  | .trace => 'T'

theorem text_letter (l : Level) : ∃ t, l.text = l.letter :: t := by
  cases l
  · exact ⟨['R', 'R', 'O', 'R'], by simp [Level.text, Level.letter]⟩
  · exact ⟨['A', 'R', 'N'], by simp [Level.text, Level.letter]⟩
  · exact ⟨['N', 'F', 'O'], by simp [Level.text, Level.letter]⟩
  · exact ⟨['E', 'B', 'U', 'G'], by simp [Level.text, Level.letter]⟩
  · exact ⟨['R', 'A', 'C', 'E'], by simp [Level.text, Level.letter]⟩

theorem trace_letter : "TRACE - ".toList = 'T' :: ['R', 'A', 'C', 'E', ' ', '-', ' '] := by simp

theorem standard_head (r : Record) : (Format.standard.write r).head? = some r.level.letter := by
  unfold Format.write
  simp only []
  split
  · rename_i h
    rw [trace_letter, h]
    rfl
  · obtain ⟨t, ht⟩ := text_letter r.level
    rw [ht]
    rfl

/-- C110: in the standard format a line begins with the level, and for levels other than trace the rest is the message
and nothing else: two records that give the same line have the same level and the same message. -/
theorem standard_line_tells (r r' : Record) (h : Format.standard.write r = Format.standard.write r')
    (hr : r.level ≠ .trace) : r.level = r'.level ∧ r.args = r'.args := by
  have hd := congrArg List.head? h
  have hlev : r.level = r'.level := by
    rw [standard_head, standard_head] at hd
    revert hd
    cases r.level <;> cases r'.level <;> decide
  refine ⟨hlev, ?_⟩
  unfold Format.write at h
  simp only [] at h
  rw [if_neg hr, if_neg (hlev ▸ hr), hlev] at h
  exact List.append_cancel_left (List.append_cancel_right h)

example : Plain "loaded the shell".toList := by unfold Plain; decide
example : String.ofList (Format.standard.write quoting) = "INFO - loaded \"Shell\"\n" := by decide +kernel
example : String.ofList (Format.standard.write forging) = "TRACE - unknown:0: x\", \"level\": \"ERROR\n" := by
  decide +kernel

end Verif.Log
