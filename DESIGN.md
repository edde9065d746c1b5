# Formal model of surface-sim in Lean 4: design

Subject: `surface_sim` (python package in /repo, pinned commit).  The code is read as text only; nothing is executed.
This file says what is modelled and how, what the theorems mean, what is trusted, and where the code disagrees with the
properties.  The list of properties is `properties.jsonl`; `MANIFEST.json` maps each to its theorems and status.

## 1. Trusted base

* The kernel of Lean 4.33.0, and the definitions of Mathlib used in statements (`ZMod`, `Rat`, `Real`, `Complex`,
  `Matrix`, `List`).
* Axioms: only `propext`, `Classical.choice`, `Quot.sound` (check with `#print axioms`).  No axioms of our own, no
  `sorry`, no `native_decide`, no `bv_decide`.  Concrete witnesses are checked by the kernel (`decide +kernel`).
* The hand translation python -> Lean.  Every definition in `Verif/Model` cites the file and lines it models.
* The meaning given to stim instructions: `Spec/Frame.lean`, `Spec/Signed.lean`, `Spec/Hilbert.lean`.  The first two
  are *proved* from the third (C51), so what is trusted is the table of unitaries and projections in `Spec/Hilbert.lean`.
* The meaning given to library functions the code calls: python dictionaries, lists and sets, insertion order of
  `networkx` digraphs, `numpy`/`xarray` matrix algebra, the determinant of `galois`.

## 2. Organisation

```
lean/Verif/Model/*   executable model, function by function, with citations
lean/Verif/Spec/*    small specifications the theorems are stated with
lean/Verif/Lemmas/*  helper lemmas
lean/Verif/Props/*   property theorems (names start with the property id) and examples meeting their hypotheses
seeded/LOG.jsonl     wrong programs tried against the theorems
```

## 3. What is modelled, and how

| code | model | remarks |
|------|-------|---------|
| python itself | `Model/Py` | exceptions are values (only the class is kept); a method on a mutable object is `PyM σ α = σ → Except Err α × σ`, so the state after an exception is part of the model; dictionaries are association lists in insertion order |
| `stim.Circuit` | `Model/Stim` | list of instructions (gate, targets, arguments) with stim's fusion of equal neighbours where the code relies on it |
| `models/model.py` | `Model/MeasRecord` | complete |
| `models/library.py` | `Model/NoiseModels` | all models; a model is the record of its methods over the measurement record and the parameters of the setup |
| `models/util.py` | `Model/ModelUtil` (exact rationals), `Model/IdleProbs` (reals) | complete |
| `setup/setup.py`, `setup/library.py` | `Model/Setup` | complete but YAML input and output; values are numbers or free variables |
| `layouts/layout.py`, `layouts/operations.py` | `Model/Layout` | node attributes are a closed type of values (`Val`); adjacency is an ordered dictionary |
| `layouts/library/*.py` | `Model/LayoutLib` | complete, for all distances and arguments |
| `detectors/detectors.py` | `Model/Detectors` | complete; matrices over `Fin n`; inverses are rational, as in the code, and reduced mod 2 |
| `util/circuit_operations.py` | `Model/CircuitOps` | complete |
| `circuit_blocks/*.py` | `Model/Blocks` | complete; a python generator is the list of its suspended computations, run in order by its consumer |
| `log_gates/*.py` | `Model/LogGates` | complete; simplifications below |
| `experiments/*.py` | `Model/Experiments` | complete |
| `layouts/util.py` | `Model/LayoutUtil` | complete; the loops over the queue get as fuel (n+1)^n for n qubits, and `coordsLoop_spec`, `chainLoop_spec` show that it is never used up (a neighbour is put into the queue again for every qubit that sees it, so the number of iterations is not bounded by n) |
| `util/data_gen.py` | `Model/DataGen` | complete for non-negative arguments; numpy arrays are shape and row-major data; the sampler is an arbitrary function that returns one row for each shot |

Simplifications, all of which are visible in the files:

* Numbers are exact (rationals, or reals for `idle_error_probs`), not floats.  `reflection` in the log gates is the exact
  reflection; rounding to 5 decimals and the tolerance of `np.allclose` are modelled.
* Sets are lists without duplicates; wherever the code iterates over a set, the order is given by an arbitrary parameter
  (`SetOrder`), over which theorems quantify.
* networkx's search for monomorphisms is a parameter (`Matcher`) that is only known to return exactly the monomorphisms.
* `while` loops that may not end have fuel (`czSteps`, `sSteps`); the theorems show that it suffices.
* Plotting: matplotlib is a record of what was added to and set on the axes, means are exact rationals and angles are real
  (`Complex.arg`), `np.argsort` is a parameter (`ArgSort`) that is only known to sort, and `metaparams` of the qubits is an argument.
  Equal limits, which matplotlib widens, and options unknown to matplotlib are not modelled.
* The plain XZZX round recomputes the interaction order of step g from the code as written, including its typo.
* `isinstance` checks that a typed model cannot violate, messages of exceptions, `copy`, and numpy memory layout are not
  modelled.  Not modelled at all: file input and output, the random numbers of stim's
  sampler (theorems quantify over all outcomes).

## 4. Meaning of circuits

`ops c` flattens a circuit to elementary operations: noise, TICKs and coordinates have no effect.

* **Frame semantics** (`Spec/Frame`): bits `x q`, `z q` per qubit say by which Pauli the state differs from the reference
  run; Clifford gates act linearly, resets and measurements randomise.  `ζ` (start) and `ρ` (each measurement and reset)
  are arbitrary streams of bits; theorems quantify over all.  The values of detectors and observables are the
  XORs of flips relative to the reference run (no Pauli gates, all reference outcomes 0).
* **Hilbert-space semantics** (`Spec/Hilbert`): kets are functions from assignments of bits to ℂ, gates are their
  matrices, a measurement is a projection with non-zero result.  `Deterministic` says that all runs with non-zero
  amplitude give the same XOR for every detector and observable.
* **C51** connects both: a circuit is `Deterministic` exactly if its values in the frame semantics do not depend on
  `ζ, ρ`, for all circuits whose two-qubit gates act on different qubits (`PairsOk`, proved for the experiments).  The frame
  semantics is proved sound and complete for this.  The caveat: absolute values are relative to the reference run; C51
  also states what that means for actual outcomes.
* **Signed Paulis** (`Spec/Signed`): images of `i^k X^a Z^b` under unitary operations, proved from the matrices (C51).

A noise model enters through `Faithful`/`CanRun` (`Spec/Faithful`): removing noise from the circuit of each method leaves the
named operation on the given qubits (C34 proves this for the library).  The hypothesis `WithParams l0 l` means
that `l` is a generated layout `l0` on which `set_param` may have been called for keys other than the ones that define
the layout.

## 5. Properties and proof ideas

| id | idea |
|----|------|
| C01 C02 C03 | refinement: the index lists of the `Model` represent the list of measured qubits |
| C04-C06 | case analysis on dictionaries; specification on the raw input |
| C07-C09 C46-C48 | induction over the loader loops; exact acceptance conditions |
| C10 | list induction |
| C11-C15, C16-C18 | closed form of the loops, parity arithmetic; cutting argument for the distance |
| C19-C22 | invariant of the index loop; multisets and sublists |
| C23-C27 | invariants over arbitrary histories of API calls; linear algebra over ℚ and mod 2 |
| C28 | each block uses each qubit at most (exactly, with idling) once between TICKs: counting over the blocks; the counting is over an arbitrary set of instructions, so it serves C56 too. Generators alternate between a step and a TICK (`AltOf`), which merging keeps; experiments concatenate blocks (`Timeline`) |
| C29 C30 C31 C44 | layers in closed form, geometry of the layouts; a round is the measurement of the stabilizers for every frame and every randomness (`RoundMeasures`).  Google rounds: superposition principle, the echo pulses contribute fixed flips (`RoundMeasuresShifted`) |
| C32 C33 | induction over rounds, with the values of all detectors in closed form (`FixedValues`, `FixedValuesUpTo`; with gauge detectors `FixedButGauge`); positions in the record and in reshaped arrays |
| C34 C35 | complete content of the noisy circuits as lists of elementary applications |
| C36 C37 | induction on n; inequalities for exp |
| C38-C40 | geometry of folding; exact stored tables; the blocks map each stabilizer to the stored product, with signs |
| C41 | frame semantics of `log_x`, `log_z` |
| C42 C43 C49 | closed forms of the loops; negations with witnesses |
| C45 | negation |
| C50 | merged rounds act like the separate ones (`Shuf`: the merged operations are a shuffle) |
| C51 | see section 4 |
| C52 | invariant over gates and rounds: current values of stabilizers and logical operators, generator matrices of the `Detectors` object (`GInv`); a gate acts on values by the stored table, which is an involution with an integer inverse |
| C53 | the invariant of C52 for the union of two layouts; both circuits of a step have equal instructions up to targets (`Alike`), so that they can be merged; for gates in both directions the invariant (`HInv`) keeps the frames before and after the last gate and the order of the record |
| C54, C55 | a weight of the queue that decreases with every iteration; an invariant of the graph search with an arbitrary predicate that neighbours inherit; rotated codes are connected through shared ancillas |
| C56 | the counting of C28 for noise channels instead of operations |
| C57 | faults are inserted into the list of operations (`Spec/Faults`); every row (column) of the code is a line whose product with the outcomes of the stabilizers of the basis telescopes to the observable, so `d` disjoint lines give `d` values of the observable; one fault, also after a two-qubit gate, touches at most one line at a time (the hook condition, checked from the gate order at every site of the grid), so fewer than `d` faults leave a line untouched, which proves the observable unchanged if the detectors are; wrong outcomes of the last measurement on a logical operator give `d` unseen faults.  Google rounds: the echo pulses change no line, only signs |
| C58 | `Spec/NoiseFaults`: a run of a noisy circuit puts Pauli errors on any targets of its channels and flips any outcomes (`Realizes`, counting the errors); shown to be a set of faults of C57: by C28 every qubit is in one operation per time step, so that no other operation acts on a pair between its two-qubit gate and its channel; that channels follow gates is shown for the library models (`LocalNoise`) and carried through the fusing of instructions and all blocks; exactness from the same wrong outcomes as in C57 (`Unseen`) |
| C59 | `Spec/Workflow`: the calls of the README written with the methods of the layout and the class constructors (`Prepares`); conclusions are those of C32 and C58 |
| C60 | the lines of C57 on both codes together: a line of the control plus or minus the same line of the target, with two coefficients in Z2 (`jointW`); a transversal CNOT maps these lines to each other and the coefficients by the gate, so that one line untouched by all faults decides both observables (`CInv`: the invariant of C52 and C53 for runs with faults); merged blocks are shuffles of separate ones, which move no fault to another line (`Interleaved`); noise: merging blocks in turns keeps every two-qubit channel after its gate (`transposed_follows`), and the sorted initialization has no two-qubit operations (`Bare`); gates in both directions (`FaultsTurn`): the same invariant for the stored frame matrices of both directions (`TInv`), exchanged with the two codes between gates |
| C61 | `Spec/Plotter`: polygons as lists of corners with all others strictly to the right of each side.  The mean of the corners is strictly inside; two consecutive corners seen from it turn clockwise by less than half a turn, and no other corner is in the cone between them (a corner in it would be a combination of the mean and the two, against its own side); so each step of the polygon is a step to the next angle or the step from the largest to the smallest, and sorting by angle gives the polygon again.  Library codes: five shapes of neighbourhoods each |
| C62 | the invariant of C52 along an arbitrary list of steps; flips of the logical operators are added to the values and commute with the gates up to the images of the logical operators (`foldl_steps`), which gives the two-bit interpreter `Spec.signs` |
| C63 | `Spec/PairProgram`: the program as a list of steps and what each does to a pair of bits; the invariant of C53 (`HInv`) along the list, with the gates since the last round kept as a pending frame that is the last one or differs from it by one gate (`Pending`, a gate is an involution); Pauli gates of one code change no value of the other (`blockG_pair`) |
| C64 | the invariant of C60 (`TInv`) along the list of steps; Pauli gates leave the parities of the lines as they are (`pres_pauli`), a CNOT gate maps lines of both codes to such lines; `pair_detects` for any body between the first round and the measurement; for the noise the time steps of programs (`time_pair`, `C28_pair_program`), in which no qubit is used twice |

A theorem with suffix `_partial` covers part of its property; the note in `MANIFEST.json` says what is missing.  A theorem
ending in `_wrong` proves that the code violates a property.

## 6. Disagreements between code and properties

All are proved unless marked as a remark.

* C02: `meas_target(q, +len)` raises IndexError instead of the documented ValueError; non-negative indices are accepted.
* C04: qubit-specific values of a parent are ignored.  C05: free variables, empty setups and keys of three or more qubits
  do not survive `to_dict`/`from_dict`.
* C07: a neighbour outside the layout raises RuntimeError, not ValueError.  C08: `set_param("ind", ..)` breaks the round trip.
* C20: merging can put measurements in another order than recorded.
* C22: `remove_pairs` keeps three copies of an element that occurs three times; the multiplicities are stated exactly.
* C23: deactivating coupled ancillas makes the update singular.
* C24: the inverse is rational and is used where the forward update is needed: detectors are wrong unless the gates
  between two rounds multiply to an involution.  C53: so `repeated_cnot_experiment` with orientation "alternating" and
  `no rounds per gate` returns circuits with wrong detectors (`C53_alternating_no_rounds`).
* C28, C56: the plain XZZX round uses qubits twice in a block; `log_x_xzzx`/`log_z_xzzx` idle only the ancillas, so data
  qubits have no noise channel.
* C29: needs distance_z >= 2: for distance_z = 1 the conditional H set is empty and the round measures wrong operators.
* C31, C32, C51: the plain XZZX round applies the CZs of step e again in step g; its memory experiments are not deterministic.
* C33: `sample_memory_experiment` raises IndexError for experiments with a single measurement (a code of one qubit), because
  `np.squeeze` removes the only axis.
* C34: `BiasedCircuitNoiseModel.measure_y` emits MX; `DecoherenceNoiseModel.measure*` with asymmetric noise raises.
* C38: `np.allclose` compares with a relative tolerance, so for layouts more than about 10^5 apart `set_trans_cnot` may
  choose a reflection and store wrong generators.
* C40: rotated `set_trans_s` works only at the data qubit on both logical operators, not at every corner as
  documented; the final `S_DAG` gives one X stabilizer the sign -.
* C42: the alternating pattern of `repeated_cnot_experiment` does not alternate from the third gate on.
* C43: `merge_log_meas` reuses observable indices when layouts have different numbers of logical qubits.
* C45: see its theorem.  C49: `merge_log_meas` with different bases.
* Remarks: `merge_log_meas` does not deactivate ancillas; `gm.is_isomorphic` in `set_trans_cnot` is a method that is never
  called, so its check never fails; distance 0 is accepted by the layout generators; the Google round does not check
  `anc_detectors`; `surface_sim/experiments/__init__.py` does not export the unrotated module.
- `set_coords` counts the words of a direction: for unrotated codes (`north`, `east`, ...) the coordinates of all qubits but the last one
  have one entry, and different qubits get equal coordinates (`C54_unrot_one_number`, `C54_unrot_wrong`).
- `index_chain` accepts layouts with isolated qubits, contrary to its docstring, as only qubits connected to the initial one are looked at
  (`C55_isolated_wrong`); on a ring the last qubit is put into the queue twice and an index is skipped (`C55_ring_wrong`).
- A code of distance 1 has no ancillas, and `Detectors` rejects an empty list, so that no experiment that takes a `Detectors` object can
  be built for it (`C59_distance_one`).
- A variable parameter set under the name of a parameter (`set_var_param("sq_error_prob", x)`) is found by `var_param` also through
  the fallback table, but is not used by `param` (`C06_var_param`, `C06_param_after_sets` and the example beside them).
- The text of a label drops what follows the digits, since `RE_FILTER.match` is not anchored at the end: `D1a` and `D1b` look the same
  (`C61_label_text_collision`).  For unrotated codes of one row the patches have no area (`C61_unrot_flat`).
