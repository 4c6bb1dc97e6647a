import Verif.Props.Configured
import Verif.Props.Proto
/-!
C117: a remote instance executes the same statements as the server.
-/
namespace Finch

/-- The configuration of a stage on an instance: the one of the server (compute/client.go:71-73, JSON is not
modelled) with the trx files that the instance fetched, compute/client.go:187-220. -/
def StageConf.fetched (c : StageConf) (trx : List TrxConf) : StageConf := { c with trx := trx }

/-- An instance with these files: `bufio.Scanner` splits their content into lines. -/
def StageRest.withFiles (r : StageRest) (scan : Bytes → List Text) (files : FS) : StageRest :=
  { r with content := fun f => (files f).map scan }

/-- Spec: a fetch of the trx files of a stage from a server into a new directory. No two files have the same name
in it, and files that the instance had already are those of the server (C56 is false otherwise). -/
structure FetchOk (files fs : FS) (tmpdir : Text) (ts : List TrxConf) : Prop where
  sep : ∀ t ∈ ts, ∀ t' ∈ ts, t.file ≠ tmpPath tmpdir t'
  fresh : ∀ x, fs (tmpdir ++ '/' :: x) = none
  distinct : ((ts.filter fun t => (fs t.file).isNone).map fun t => baseName t.file).Nodup
  same : ∀ t ∈ ts, fs t.file = none ∨ fs t.file = files t.file

/-! ### Lemmas -/

theorem getTrxFiles_some (root : Bool) (server : Nat → Option Bytes) (tmpdir : Text) :
    ∀ (ts : List TrxConf) (i : Nat) (fs : FS),
    (∀ t ∈ ts, ∀ t' ∈ ts, t.file ≠ tmpPath tmpdir t') →
    (∀ t ∈ ts, fs t.file = none → fs (tmpPath tmpdir t) = none) →
    ((ts.filter fun t => (fs t.file).isNone).map fun t => baseName t.file).Nodup →
    (∀ (k : Nat) t, ts[k]? = some t → server (i + k) ≠ none) →
    getTrxFiles root server tmpdir i fs ts ≠ none := by
  intro ts
  induction ts with
  | nil => intro i fs _ _ _ _ h; cases h
  | cons t ts ih =>
    intro i fs hsep hfree hnd hserver
    simp only [getTrxFiles]
    have hsep' : ∀ x ∈ ts, ∀ y ∈ ts, x.file ≠ tmpPath tmpdir y :=
      fun x hx y hy => hsep x (List.mem_cons_of_mem _ hx) y (List.mem_cons_of_mem _ hy)
    have hserver' : ∀ (k : Nat) x, ts[k]? = some x → server (i + 1 + k) ≠ none := fun k x hk => by
      rw [show i + 1 + k = i + (k + 1) by omega]; exact hserver (k + 1) x (by simpa using hk)
    cases hloc : fs t.file with
    | some c =>
      have hnd' : ((ts.filter fun t => (fs t.file).isNone).map fun t => baseName t.file).Nodup := by
        rw [List.filter_cons, hloc] at hnd
        simpa using hnd
      have := ih (i + 1) fs hsep' (fun x hx => hfree x (List.mem_cons_of_mem _ hx)) hnd' hserver'
      simpa using this
    | none =>
      simp only [Option.isSome_none, Bool.false_eq_true, if_false]
      cases hs : server i with
      | none => exact absurd hs (hserver 0 t rfl)
      | some body =>
        have hf0 := hfree t List.mem_cons_self hloc
        simp only []
        rw [show (tmpdir ++ '/' :: baseName t.file) = tmpPath tmpdir t from rfl, writeFile_new hf0]
        simp only []
        generalize hfs1 : (fun f => if f = tmpPath tmpdir t then some body else fs f) = fs1
        have hfs1' : ∀ f, fs1 f = if f = tmpPath tmpdir t then some body else fs f := by
          intro f; rw [← hfs1]
        have hsame : ∀ x ∈ ts, fs1 x.file = fs x.file := by
          intro x hx
          rw [hfs1', if_neg (hsep x (List.mem_cons_of_mem _ hx) t List.mem_cons_self)]
        rw [List.filter_cons, hloc] at hnd
        simp only [Option.isNone_none, if_true, List.map_cons, List.nodup_cons] at hnd
        have hne : ∀ x ∈ ts, fs x.file = none → tmpPath tmpdir x ≠ tmpPath tmpdir t := by
          intro x hx hxl heq
          apply hnd.1
          unfold tmpPath at heq
          have := List.append_cancel_left heq
          injection this with _ hb
          rw [← hb]
          exact List.mem_map.mpr ⟨x, List.mem_filter.mpr ⟨hx, by rw [hxl]; rfl⟩, rfl⟩
        have hnd' : ((ts.filter fun t => (fs1 t.file).isNone).map fun t => baseName t.file).Nodup := by
          rw [List.filter_congr (fun x hx => by rw [hsame x hx])]
          exact hnd.2
        have := ih (i + 1) fs1 hsep' (by
            intro x hx hxl
            rw [hsame x hx] at hxl
            rw [hfs1', if_neg (hne x hx hxl)]
            exact hfree x (List.mem_cons_of_mem _ hx) hxl) hnd' hserver'
        simpa using this

/-! ### The property -/

/-- **C117.** After a successful fetch the instance has the same trx files, workload and rates to prepare as the
server; so it prepares the same statements and clients, from the same data scope. -/
theorem C117_same_stage_partial (root : Bool) (files fs fs' : FS) (tmpdir : Text) (c : StageConf) (r : List TrxConf)
    (hok : FetchOk files fs tmpdir c.trx)
    (h : getTrxFiles root (serveFile files c.trx) tmpdir 0 fs c.trx = some (r, fs'))
    (rest : StageRest) (scan : Bytes → List Text) :
    (c.fetched r).prepEnv (rest.withFiles scan fs') = c.prepEnv (rest.withFiles scan files) := by
  obtain ⟨h1, h2, h3⟩ := C56_content_partial root files fs fs' tmpdir c.trx r hok.sep hok.fresh hok.distinct h
  unfold StageConf.prepEnv
  have : r.map (TrxConf.trxFile (rest.withFiles scan fs') c.params) =
      c.trx.map (TrxConf.trxFile (rest.withFiles scan files) c.params) := by
    apply List.ext_getElem?
    intro k
    rw [List.getElem?_map, List.getElem?_map]
    cases hk : c.trx[k]? with
    | none =>
      rw [List.getElem?_eq_none_iff] at hk
      rw [List.getElem?_eq_none_iff.2 (by omega)]
      rfl
    | some t =>
      obtain ⟨t', e1, e2, e3, e4, e5⟩ := h3 k t hk
      rw [e1]
      have hc : fs' t'.file = files t.file := by
        by_cases hx : fs t.file = none
        · exact (e4 hx).1
        · rw [e5 hx, h2 _ hx]
          exact (hok.same t (List.mem_of_getElem? hk)).resolve_left hx
      simp only [Option.map_some, Option.some.injEq]
      unfold TrxConf.trxFile
      simp only [StageRest.withFiles, e2, e3, hc]
  simp only [StageConf.fetched, this]
  rfl

/-- **C117 (fetching).** If the server has the files, fetching them succeeds. -/
theorem C117_fetch (root : Bool) (files fs : FS) (tmpdir : Text) (ts : List TrxConf)
    (hok : FetchOk files fs tmpdir ts) (hs : ∀ t ∈ ts, files t.file ≠ none) :
    ∃ r fs', getTrxFiles root (serveFile files ts) tmpdir 0 fs ts = some (r, fs') := by
  have h := getTrxFiles_some root (serveFile files ts) tmpdir ts 0 fs hok.sep (fun t _ _ => hok.fresh _) hok.distinct
    (fun k t hk => by
      rw [Nat.zero_add]
      unfold serveFile
      rw [hk]
      exact hs t (List.mem_of_getElem? hk))
  cases hx : getTrxFiles root (serveFile files ts) tmpdir 0 fs ts with
  | none => exact absurd hx h
  | some p => exact ⟨p.1, p.2, rfl⟩

/-- **C117 (benchmark).** So all stages of a benchmark are prepared alike on the instance and on the server. -/
theorem C117_same_benchmark_partial (cs : List (StageConf × StageConf × StageRest × StageRest))
    (h : ∀ x ∈ cs, ∃ root files fs fs' tmpdir r rest scan, FetchOk files fs tmpdir x.1.trx ∧
      getTrxFiles root (serveFile files x.1.trx) tmpdir 0 fs x.1.trx = some (r, fs') ∧
      x.2.1 = x.1.fetched r ∧ x.2.2.1 = StageRest.withFiles rest scan files ∧
      x.2.2.2 = StageRest.withFiles rest scan fs') :
    StagesSt.new.all (cs.map fun x => x.2.1.prepEnv x.2.2.2) = StagesSt.new.all (cs.map fun x => x.1.prepEnv x.2.2.1) := by
  congr 1
  apply List.map_congr_left
  intro x hx
  obtain ⟨root, files, fs, fs', tmpdir, r, rest, scan, h1, h2, h3, h4, h5⟩ := h x hx
  rw [h3, h4, h5]
  exact C117_same_stage_partial root files fs fs' tmpdir x.1 r h1 h2 rest scan

/-! ### Examples -/

/-- Bytes of a text and lines of bytes, for the examples (ASCII without line breaks). -/
def exBytes (s : String) : Bytes := s.toList.map fun c => UInt8.ofNat c.toNat

/-- One line for each zero byte. -/
def exScanBytes (b : Bytes) : List Text := (splitOn1 '\x00' (b.map fun x => Char.ofNat x.toNat))

/-- A file with a number of copies from the environment. -/
def exEnvFiles : FS := fun f =>
  if f = "dir/a.sql".toList then some (exBytes "-- copies: $N\x00INSERT INTO t VALUES (1)") else none

def exEnvStage : StageConf := { trx := [{ name := "a.sql".toList, file := "dir/a.sql".toList }] }

/-- The environment variable `N`. -/
def exEnvRest (n : String) : StageRest :=
  { exRest with lookupEnv := fun v => if v = "N".toList then some n.toList else none }

/-- The hypotheses of the fetch are met. -/
example : FetchOk exEnvFiles (fun _ => none) "/tmp/f".toList exEnvStage.trx ∧
    (getTrxFiles false (serveFile exEnvFiles exEnvStage.trx) "/tmp/f".toList 0 (fun _ => none)
      exEnvStage.trx).isSome := by
  refine ⟨⟨?_, fun _ => rfl, ?_, fun _ _ => .inl rfl⟩, ?_⟩
  · decide +kernel
  · decide +kernel
  · decide +kernel

/-- C117 is false if the trx file uses an environment variable: its value is that of the instance, not of the
server. The server executes the statement twice, the instance three times. -/
theorem C117_environment_false : ∃ r fs', getTrxFiles false (serveFile exEnvFiles exEnvStage.trx) "/tmp/f".toList 0
    (fun _ => none) exEnvStage.trx = some (r, fs') ∧
    execsOf (prepare (exEnvStage.prepEnv ((exEnvRest "2").withFiles exScanBytes exEnvFiles))
      DataScope.new GoMap.empty) =
      [[[List.replicate 2 "INSERT INTO t VALUES (1)".toList]]] ∧
    execsOf (prepare ((exEnvStage.fetched r).prepEnv ((exEnvRest "3").withFiles exScanBytes fs'))
      DataScope.new GoMap.empty) =
      [[[List.replicate 3 "INSERT INTO t VALUES (1)".toList]]] := by
  refine ⟨_, _, rfl, ?_, ?_⟩
  · decide +kernel
  · decide +kernel

end Finch
